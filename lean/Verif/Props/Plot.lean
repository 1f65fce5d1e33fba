import Verif.Spec.Plot
import Verif.Lemmas.Py
import Mathlib.Data.List.FinRange
import Mathlib.Data.List.Range
import Mathlib.Tactic.IntervalCases
import Mathlib.Tactic.Push
import Mathlib.Data.Fin.VecNotation

/-! # C87: every dimension is plotted in its own subplot -/

namespace Verif
open Plot Spec

/-! ## Helper lemmas -/

namespace Plot

theorem mapM_ok {α β : Type} (f : α → Except PyErr β) (g : α → β) :
    ∀ l : List α, (∀ x ∈ l, f x = .ok (g x)) → l.mapM f = .ok (l.map g)
  | [], _ => rfl
  | x :: l, h => by
    rw [List.mapM_cons, h x (by simp), mapM_ok f g l (fun y hy => h y (by simp [hy]))]
    rfl

theorem mapM_error {α β : Type} (f : α → Except PyErr β) (g : α → β) (e : PyErr) (x : α) (hx : f x = .error e) :
    ∀ l l' : List α, (∀ y ∈ l, f y = .ok (g y)) → (l ++ x :: l').mapM f = .error e
  | [], l', _ => by rw [List.nil_append, List.mapM_cons, hx]; rfl
  | y :: l, l', h => by
    rw [List.cons_append, List.mapM_cons, h y (by simp), mapM_error f g e x hx l l' (fun z hz => h z (by simp [hz]))]
    rfl

/-- Index in the grid of dimension `i`, counted from 0. -/
def cellIndex (h w : ℕ) (transpose : Bool) (i : ℕ) : ℕ := if transpose then i % h * w + i / h else i

theorem dimOrder_ok {h w : ℕ} (hh : 0 < h) (tr : Bool) (i : ℕ) : dimOrder h w tr i = .ok (cellIndex h w tr i) := by
  unfold dimOrder cellIndex
  cases tr <;> simp [Nat.pos_iff_ne_zero.mp hh]

theorem cellIndex_lt {h w i : ℕ} (hh : 0 < h) (hi : i < h * w) (tr : Bool) : cellIndex h w tr i < h * w := by
  unfold cellIndex
  cases tr
  · simpa using hi
  · have h1 : i % h + 1 ≤ h := Nat.mod_lt _ hh
    have h2 : i / h < w := Nat.div_lt_of_lt_mul hi
    simp only [if_true]
    calc i % h * w + i / h < i % h * w + w := by omega
      _ = (i % h + 1) * w := by ring
      _ ≤ h * w := Nat.mul_le_mul_right _ h1

theorem cellIndex_divMod {h w i : ℕ} (hi : i < h * w) (tr : Bool) :
    (cellIndex h w tr i / w, cellIndex h w tr i % w) = if tr then (i % h, i / h) else (i / w, i % w) := by
  cases tr
  · simp [cellIndex]
  · have h2 : i / h < w := Nat.div_lt_of_lt_mul hi
    have hw : 0 < w := lt_of_le_of_lt (Nat.zero_le _) h2
    have e1 : (i % h * w + i / h) / w = i % h := by
      rw [Nat.add_comm, Nat.add_mul_div_right _ _ hw, Nat.div_eq_of_lt h2, Nat.zero_add]
    have e2 : (i % h * w + i / h) % w = i / h := by
      rw [Nat.add_comm, Nat.add_mul_mod_self_right, Nat.mod_eq_of_lt h2]
    simp [cellIndex, e1, e2]

theorem cellIndex_inj {h w i j : ℕ} (hi : i < h * w) (hj : j < h * w) (tr : Bool)
    (hij : cellIndex h w tr i = cellIndex h w tr j) : i = j := by
  have a := cellIndex_divMod hi tr
  have b := cellIndex_divMod hj tr
  rw [hij, b] at a
  cases tr
  · simpa [cellIndex] using hij
  · simp only [if_true, Prod.mk.injEq] at a
    rw [← Nat.div_add_mod i h, ← Nat.div_add_mod j h, a.1, a.2]

theorem createAxes_ok {n h w : ℕ} (hh : 0 < h) (hn : n ≤ h * w) (tr : Bool) :
    createAxes n h w tr = .ok ((List.range n).map fun i => 1 + cellIndex h w tr i) := by
  unfold createAxes
  rw [mapM_ok _ (cellIndex h w tr) _ (fun i _ => dimOrder_ok hh tr i)]
  change ((List.range n).map (cellIndex h w tr)).mapM (fun i => subplot h w (1 + i)) = _
  rw [mapM_ok _ (fun i => 1 + i), List.map_map]
  · rfl
  · intro k hk
    obtain ⟨i, hi, rfl⟩ := List.mem_map.mp hk
    have := cellIndex_lt (w := w) hh (lt_of_lt_of_le (List.mem_range.mp hi) hn) tr
    unfold subplot
    rw [if_pos ⟨by omega, by omega⟩]

theorem exec_forEach {α : Type} (body : α → Py Figure Unit) (g : α → Figure) :
    ∀ (l : List α) (fig : Figure), (∀ i ∈ l, ∀ fig, (body i).exec fig = (.ok (), fig ++ g i)) →
      (forEach body l).exec fig = (.ok (), fig ++ l.flatMap g)
  | [], fig, _ => by simp [forEach]
  | i :: l, fig, h => by
    rw [forEach, Py.exec_bind, h i (by simp)]
    simp only
    rw [exec_forEach body g l _ (fun j hj => h j (by simp [hj]))]
    simp

theorem filter_flatMap_eq {α : Type} (ax : α → ℕ) (g : α → Figure) (hg : ∀ i, ∀ c ∈ g i, c.1 = ax i) (k : ℕ) :
    ∀ l : List α, (∀ i ∈ l, ax i ≠ k) → (l.flatMap g).filter (fun c => decide (c.1 = k)) = []
  | [], _ => rfl
  | i :: l, h => by
    rw [List.flatMap_cons, List.filter_append, filter_flatMap_eq ax g hg k l (fun j hj => h j (by simp [hj]))]
    have : (g i).filter (fun c => decide (c.1 = k)) = [] := by
      rw [List.filter_eq_nil_iff]
      intro c hc
      have := h i (by simp)
      simp [hg i c hc, this]
    simp [this]

theorem filter_flatMap {α : Type} (ax : α → ℕ) (g : α → Figure) (hg : ∀ i, ∀ c ∈ g i, c.1 = ax i) (i : α) :
    ∀ l : List α, (l.map ax).Nodup → i ∈ l → (l.flatMap g).filter (fun c => decide (c.1 = ax i)) = g i
  | [], _, hi => by simp at hi
  | j :: l, hn, hi => by
    rw [List.map_cons, List.nodup_cons] at hn
    rw [List.flatMap_cons, List.filter_append]
    by_cases hj : ax j = ax i
    · have hij : i = j := by
        rcases List.mem_cons.mp hi with h | h
        · exact h
        · exact absurd (hj ▸ List.mem_map_of_mem h : ax j ∈ l.map ax) hn.1
      subst hij
      rw [filter_flatMap_eq ax g hg (ax i) l, List.append_nil, List.filter_eq_self]
      · intro c hc; simpa using hg i c hc
      · intro j hjl h
        exact hn.1 (h ▸ List.mem_map_of_mem hjl)
    · have hi' : i ∈ l := by
        rcases List.mem_cons.mp hi with h | h
        · exact absurd (congrArg ax h).symm hj
        · exact h
      rw [filter_flatMap ax g hg i l hn.2 hi']
      have : (g j).filter (fun c => decide (c.1 = ax i)) = [] := by
        rw [List.filter_eq_nil_iff]
        intro c hc
        simp [hg j c hc, hj]
      simp [this]

theorem axisAt_ok {axes : List ℕ} {i : ℕ} (h : i < axes.length) : axisAt axes i = .ok axes[i] := by
  unfold axisAt
  rw [List.getElem?_eq_getElem h]

/-- Commands that the layout sends for dimension `i`. -/
def layoutCmds (h w : ℕ) (xlabel : String) (lo hi : ℝ) (tr : Bool) (titles : List String) (i : ℕ) : List Cmd :=
  [.title (titles.getD i ("Dimension #" ++ toString i)),
    if hasXlabel h w tr i then .xlabel xlabel else .noTicks, .xlim lo hi]

theorem exec_send (ax : ℕ) (c : Cmd) (fig : Figure) : (send ax c).exec fig = (.ok (), fig ++ [(ax, c)]) := rfl

theorem exec_layoutAxis {axes : List ℕ} {h w i : ℕ} {xlabel : String} {xlim : ℝ × ℝ} {tr : Bool} {titles : List String}
    (hi : i < axes.length) (fig : Figure) :
    (layoutAxis axes h w xlabel xlim tr titles i).exec fig
      = (.ok (), fig ++ (layoutCmds h w xlabel xlim.1 xlim.2 tr titles i).map (Prod.mk axes[i])) := by
  simp only [layoutAxis, Py.exec_bind, Py.exec_lift, axisAt_ok hi, exec_send, layoutCmds]
  simp

theorem exec_line {ax : ℕ} {t y : List ℝ} {dashed : Bool} {label : Option String} (h : t.length = y.length)
    (fig : Figure) : (line ax t y dashed label).exec fig = (.ok (), fig ++ [(ax, .draw (.line t y dashed label))]) := by
  unfold line
  rw [if_neg (by simpa using h)]
  rfl

theorem exec_fillBetween {ax : ℕ} {t lo hi : List ℝ} {label : Option String} (h : t.length = lo.length)
    (h' : t.length = hi.length) (fig : Figure) :
    (fillBetween ax t lo hi label).exec fig = (.ok (), fig ++ [(ax, .draw (.area t lo hi label))]) := by
  unfold fillBetween
  rw [if_neg (by push Not; exact ⟨h, h'⟩)]
  rfl

theorem limits_ok {t : List ℝ} (ht : t ≠ []) : limits t = .ok (t.head ht, t.getLast ht) := by
  unfold limits
  rw [List.head?_eq_some_head ht, List.getLast?_eq_some_getLast ht]

/-- Both functions with new subplots: everything that is sent. -/
theorem exec_inRows {n d : ℕ} {a : Args} {body : List ℕ → List ℝ → Fin d → Py Figure Unit} (g : Fin d → List Cmd)
    {axes : List ℕ} (ha : a.axes = none)
    (hc : createAxes d (a.subplotShape.getD (d, 1)).1 (a.subplotShape.getD (d, 1)).2 a.transpose = .ok axes)
    (hl : axes.length = d) (ht : times a n ≠ [])
    (hb : ∀ (i : Fin d) (fig : Figure), (body axes (times a n) i).exec fig
      = (.ok (), fig ++ (g i).map (Prod.mk (axes[i.val]'(hl ▸ i.isLt))))) (fig : Figure) :
    (inRows n d a body).exec fig = (.ok axes, fig
      ++ (List.finRange d).flatMap (fun i : Fin d => (g i).map (Prod.mk (axes[i.val]'(hl ▸ i.isLt))))
      ++ (List.finRange d).flatMap (fun i : Fin d => (layoutCmds (a.subplotShape.getD (d, 1)).1 (a.subplotShape.getD (d, 1)).2
          (if a.t.isSome then "Time [s]" else "Step") ((times a n).head ht) ((times a n).getLast ht) a.transpose
          a.axisTitles i).map (Prod.mk (axes[i.val]'(hl ▸ i.isLt))))) := by
  have hlay : ∀ fig xlabel xlim, (layoutAxes axes d (a.subplotShape.getD (d, 1)).1 (a.subplotShape.getD (d, 1)).2
      xlabel xlim a.transpose a.axisTitles).exec fig = (.ok (), fig ++ (List.finRange d).flatMap (fun i : Fin d =>
        (layoutCmds (a.subplotShape.getD (d, 1)).1 (a.subplotShape.getD (d, 1)).2 xlabel xlim.1 xlim.2 a.transpose
          a.axisTitles i).map (Prod.mk (axes[i.val]'(hl ▸ i.isLt))))) := by
    intro fig xlabel xlim
    unfold layoutAxes
    have hr : List.range d = (List.finRange d).map Fin.val := by simp
    rw [exec_forEach _ (fun i => if hi : i < axes.length then
      (layoutCmds (a.subplotShape.getD (d, 1)).1 (a.subplotShape.getD (d, 1)).2 xlabel xlim.1 xlim.2 a.transpose
          a.axisTitles i).map (Prod.mk axes[i]) else [])]
    · rw [hr, List.flatMap_map]
      congr 2
      apply List.flatMap_congr
      intro i _
      rw [dif_pos (hl ▸ i.isLt)]
    · intro i hi fig
      have hi' : i < axes.length := by rw [hl]; exact List.mem_range.mp hi
      rw [exec_layoutAxis hi', dif_pos hi']
  unfold inRows
  simp only [Py.exec_bind, ha, Py.exec_lift, hc]
  rw [exec_forEach _ _ _ _ (fun i _ => hb i)]
  simp only [Option.isNone_none, if_true, Py.exec_bind, Py.exec_lift, limits_ok ht, Py.exec_pure, hlay]

theorem hasXlabel_iff {h w i : ℕ} (hh : 0 < h) (hi : i < h * w) (tr : Bool) :
    hasXlabel h w tr i = true ↔ (gridCell w (1 + cellIndex h w tr i)).1 + 1 = h := by
  have e := congrArg Prod.fst (cellIndex_divMod hi tr)
  have hc : (gridCell w (1 + cellIndex h w tr i)).1 = cellIndex h w tr i / w := by simp [gridCell]
  rw [hc]
  simp only at e
  rw [e]
  cases tr
  · have hw : 0 < w := by
      rcases Nat.eq_zero_or_pos w with rfl | h
      · simp at hi
      · exact h
    simp only [hasXlabel, Bool.false_eq_true, if_false, decide_eq_true_eq]
    have hi' : (i : ℤ) < h * w := by exact_mod_cast hi
    have k1 : i / w < h := by rw [Nat.div_lt_iff_lt_mul hw]; exact hi
    constructor
    · rintro ⟨_, h2⟩
      have : h - 1 ≤ i / w := by
        rw [Nat.le_div_iff_mul_le hw]
        have : ((h - 1 : ℕ) : ℤ) * w ≤ i := by
          rw [Nat.cast_sub hh]; push_cast; linarith
        exact_mod_cast this
      omega
    · intro h1
      refine ⟨by linarith, ?_⟩
      have : (h - 1) * w ≤ i := by
        rw [← Nat.le_div_iff_mul_le hw]; omega
      have : ((h - 1 : ℕ) : ℤ) * w ≤ i := by exact_mod_cast this
      rw [Nat.cast_sub hh] at this
      push_cast at this
      linarith
  · simp [hasXlabel]

theorem layoutCmds_eq {h w i : ℕ} (hh : 0 < h) (hi : i < h * w) (xlabel : String) (lo hi' : ℝ) (tr : Bool)
    (titles : List String) :
    layoutCmds h w xlabel lo hi' tr titles i
      = [.title (titles.getD i ("Dimension #" ++ toString i)),
          if (gridCell w (1 + cellIndex h w tr i)).1 + 1 = h then .xlabel xlabel else .noTicks, .xlim lo hi'] := by
  unfold layoutCmds
  by_cases hx : hasXlabel h w tr i = true
  · rw [if_pos hx, if_pos ((hasXlabel_iff hh hi tr).mp hx)]
  · rw [if_neg hx, if_neg (fun h' => hx ((hasXlabel_iff hh hi tr).mpr h'))]

theorem commandsOf_append (f g : Figure) (ax : ℕ) : commandsOf (f ++ g) ax = commandsOf f ax ++ commandsOf g ax := by
  simp [commandsOf]

theorem commandsOf_flatMap {d : ℕ} (ax : Fin d → ℕ) (hax : Function.Injective ax) (g : Fin d → List Cmd) (i : Fin d) :
    commandsOf ((List.finRange d).flatMap fun j => (g j).map (Prod.mk (ax j))) (ax i) = g i := by
  unfold commandsOf
  rw [filter_flatMap ax (fun j => (g j).map (Prod.mk (ax j))) ?_ i _ ((List.nodup_finRange d).map hax)
    (List.mem_finRange i)]
  · simp
  · intro j c hc
    obtain ⟨x, _, rfl⟩ := List.mem_map.mp hc
    rfl

/-- What both functions do with new subplots. -/
theorem inRows_spec {n d h w : ℕ} {a : Args} {body : List ℕ → List ℝ → Fin d → Py Figure Unit} (g : Fin d → List Cmd)
    (hshape : a.subplotShape.getD (d, 1) = (h, w)) (ha : a.axes = none) (hh : 0 < h) (hd : d ≤ h * w)
    (ht : times a n ≠ [])
    (hb : ∀ (axes : List ℕ) (i : Fin d) (hi : i.val < axes.length) (fig : Figure),
      (body axes (times a n) i).exec fig = (.ok (), fig ++ (g i).map (Prod.mk axes[i.val]))) (fig : Figure) :
    ∃ axes fig', (inRows n d a body).exec fig = (.ok axes, fig ++ fig') ∧ axes.length = d ∧ axes.Nodup
      ∧ (∀ c ∈ fig', c.1 ∈ axes)
      ∧ ∀ i : Fin d, ∃ hi : i.val < axes.length,
        gridCell w axes[i.val] = (if a.transpose then (i % h, i / h) else (i / w, i % w))
        ∧ commandsOf fig' axes[i.val] = g i ++
          [.title (a.axisTitles.getD i ("Dimension #" ++ toString i.val)),
            if (gridCell w axes[i.val]).1 + 1 = h then .xlabel (if a.t.isSome then "Time [s]" else "Step") else .noTicks,
            .xlim ((times a n).head ht) ((times a n).getLast ht)] := by
  obtain ⟨axes, haxes⟩ : ∃ axes, axes = (List.range d).map fun i => 1 + cellIndex h w a.transpose i := ⟨_, rfl⟩
  have hl : axes.length = d := by rw [haxes]; simp
  have hget : ∀ (i : ℕ) (hi : i < axes.length), axes[i] = 1 + cellIndex h w a.transpose i := by
    intro i hi
    simp [haxes]
  have hlt : ∀ i : Fin d, i.val < h * w := fun i => lt_of_lt_of_le i.isLt hd
  have hinj : Function.Injective fun i : Fin d => axes[i.val]'(hl ▸ i.isLt) := by
    intro i j hij
    simp only [hget] at hij
    exact Fin.ext (cellIndex_inj (hlt i) (hlt j) a.transpose (by omega))
  have hnd : axes.Nodup := by
    rw [haxes, List.nodup_map_iff_inj_on List.nodup_range]
    intro i hi j hj hij
    exact cellIndex_inj (lt_of_lt_of_le (List.mem_range.mp hi) hd) (lt_of_lt_of_le (List.mem_range.mp hj) hd)
      a.transpose (by omega)
  have hc : createAxes d (a.subplotShape.getD (d, 1)).1 (a.subplotShape.getD (d, 1)).2 a.transpose = .ok axes := by
    rw [hshape, createAxes_ok hh hd, haxes]
  have hex := exec_inRows (body := body) g ha hc hl ht (fun i fig => hb axes i (hl ▸ i.isLt) fig) fig
  rw [List.append_assoc] at hex
  refine ⟨axes, _, hex, hl, hnd, ?_, ?_⟩
  · intro c hc
    rcases List.mem_append.mp hc with hc | hc <;>
    · obtain ⟨i, _, hx⟩ := List.mem_flatMap.mp hc
      obtain ⟨x, _, rfl⟩ := List.mem_map.mp hx
      exact List.getElem_mem _
  · intro i
    refine ⟨hl ▸ i.isLt, ?_, ?_⟩
    · rw [hget]
      have e := cellIndex_divMod (hlt i) a.transpose
      simpa [gridCell] using e
    · rw [commandsOf_append]
      rw [commandsOf_flatMap (fun i : Fin d => axes[i.val]'(hl ▸ i.isLt)) hinj g i,
        commandsOf_flatMap (fun i : Fin d => axes[i.val]'(hl ▸ i.isLt)) hinj _ i, hshape,
        layoutCmds_eq hh (hlt i), hget]

theorem exec_drawTrajectory {d : ℕ} {X : List (Vec d)} {label : Option String} {axes : List ℕ} {t : List ℝ} {i : Fin d}
    (hi : i.val < axes.length) (ht : t.length = X.length) (fig : Figure) :
    (drawTrajectory X label axes t i).exec fig
      = (.ok (), fig ++ [Cmd.draw (.line t (X.map fun x => x i) false label)].map (Prod.mk axes[i.val])) := by
  simp only [drawTrajectory, Py.exec_bind, Py.exec_lift, axisAt_ok hi]
  rw [exec_line (by simpa [column] using ht)]
  rfl

/-- What `drawFactor` sends. -/
def factorCmds {d : ℕ} (mean std : List (Vec d)) (fill : Bool) (label : Option String) (t : List ℝ) (i : Fin d)
    (p : ℝ × ℕ) : List Cmd :=
  if fill then [.draw (.area t (bound (-p.1) mean std i) (bound p.1 mean std i) (if p.2 = 0 then label else none))]
  else [.draw (.line t (bound (-p.1) mean std i) true (if p.2 = 0 then label else none)),
    .draw (.line t (bound p.1 mean std i) true none)]

theorem length_bound {d : ℕ} (f : ℝ) {mean std : List (Vec d)} (h : mean.length = std.length) (i : Fin d) :
    (bound f mean std i).length = mean.length := by
  simp [bound, column, h]

theorem exec_drawFactor {d : ℕ} {mean std : List (Vec d)} {color : Option String} {fill : Bool} {label : Option String}
    {ax : ℕ} {t : List ℝ} {i : Fin d} (hs : mean.length = std.length) (ht : t.length = mean.length)
    (hcol : fill = false → color ≠ none) (p : ℝ × ℕ) (fig : Figure) :
    (drawFactor mean std color fill label ax t i p).exec fig
      = (.ok (), fig ++ (factorCmds mean std fill label t i p).map (Prod.mk ax)) := by
  have h1 : ∀ f, t.length = (bound f mean std i).length := fun f => by rw [length_bound f hs, ht]
  cases fill
  · obtain ⟨c, rfl⟩ := Option.ne_none_iff_exists'.mp (hcol rfl)
    simp only [drawFactor, Bool.false_eq_true, if_false, Option.isNone_some, Py.exec_bind, exec_line (h1 _), factorCmds]
    simp
  · simp only [drawFactor, if_true, exec_fillBetween (h1 _) (h1 _), factorCmds, List.map_cons, List.map_nil]

theorem exec_drawDistribution {d : ℕ} {mean std : List (Vec d)} {factors : List ℝ} {color : Option String} {fill : Bool}
    {label : Option String} {axes : List ℕ} {t : List ℝ} {i : Fin d} (hi : i.val < axes.length)
    (hs : mean.length = std.length) (ht : t.length = mean.length) (hcol : fill = false → color ≠ none) (fig : Figure) :
    (drawDistribution mean std factors color fill label axes t i).exec fig
      = (.ok (), fig ++ (Cmd.draw (.line t (mean.map fun x => x i) false none) ::
          factors.zipIdx.flatMap (factorCmds mean std fill label t i)).map (Prod.mk axes[i.val])) := by
  simp only [drawDistribution, Py.exec_bind, Py.exec_lift, axisAt_ok hi]
  rw [exec_line (by simpa [column] using ht)]
  simp only
  rw [exec_forEach _ (fun p => (factorCmds mean std fill label t i p).map (Prod.mk axes[i.val]))
    _ _ (fun p _ fig => exec_drawFactor hs ht hcol p fig)]
  simp [column, List.map_flatMap]

end Plot

/-! ## Properties -/

/-- C87: `create_axes` gives every dimension a subplot of its own as long as the grid has enough cells. The subplots are
filled row by row, or column by column if `transpose` is set. -/
theorem C87_axes {n h w : ℕ} (hh : 0 < h) (hn : n ≤ h * w) (transpose : Bool) :
    ∃ axes, createAxes n h w transpose = .ok axes ∧ axes.length = n ∧ axes.Nodup
      ∧ ∀ (i : ℕ) (hi : i < axes.length), 1 ≤ axes[i] ∧ axes[i] ≤ h * w
        ∧ gridCell w axes[i] = if transpose then (i % h, i / h) else (i / w, i % w) := by
  refine ⟨_, createAxes_ok hh hn transpose, by simp, ?_, ?_⟩
  · rw [List.nodup_map_iff_inj_on List.nodup_range]
    intro i hi j hj hij
    exact cellIndex_inj (lt_of_lt_of_le (List.mem_range.mp hi) hn) (lt_of_lt_of_le (List.mem_range.mp hj) hn)
      transpose (by omega)
  · intro i hi
    have hi' : i < h * w := lt_of_lt_of_le (by simpa using hi) hn
    have := cellIndex_lt hh hi' transpose
    have e := cellIndex_divMod hi' transpose
    simp only [List.getElem_map, List.getElem_range]
    exact ⟨by omega, by omega, by simpa [gridCell] using e⟩

/-- C87: if the grid has too few cells, an error is raised and nothing is drawn. Finding: this is only the case without
`transpose`, see `C87_finding_transposed_overlap`. -/
theorem C87_too_few_cells {d h w : ℕ} (hd : h * w < d) (X : List (Vec d)) (a : Args)
    (hshape : a.subplotShape = some (h, w)) (ha : a.axes = none) (htr : a.transpose = false) (fig : Figure) :
    (plotTrajectoryInRows X a).exec fig = (.error .valueError, fig) := by
  have hc : createAxes d h w false = .error .valueError := by
    unfold createAxes
    rw [mapM_ok _ (cellIndex h w false) _ (fun i _ => by rfl)]
    change ((List.range d).map (cellIndex h w false)).mapM (fun i => subplot h w (1 + i)) = _
    have hr : (List.range d).map (cellIndex h w false) = List.range (h * w) ++ (h * w) ::
        (List.range (d - (h * w + 1))).map (fun x => h * w + 1 + x) := by
      have e : (List.range d).map (cellIndex h w false) = List.range d := by
        rw [show cellIndex h w false = id from rfl, List.map_id]
      rw [e]
      conv_lhs => rw [show d = (h * w + 1) + (d - (h * w + 1)) by omega, List.range_add, List.range_succ]
      simp
    rw [hr]
    apply mapM_error _ (fun i => 1 + i)
    · unfold subplot
      rw [if_neg (by omega)]
    · intro y hy
      have := List.mem_range.mp hy
      unfold subplot
      rw [if_pos (by omega)]
  unfold plotTrajectoryInRows inRows
  simp only [Py.exec_bind, ha, hshape, Option.getD_some, htr, Py.exec_lift, hc]

/-- Finding (C87): with `transpose`, a grid of at least two rows that has one cell too few is accepted and two dimensions
are drawn into the same subplot. -/
theorem C87_finding_transposed_overlap {h w : ℕ} (hh : 2 ≤ h) (hw : 1 ≤ w) :
    ∃ axes, createAxes (h * w + 1) h w true = .ok axes ∧ axes.length = h * w + 1
      ∧ axes[1]? = some (w + 1) ∧ axes[h * w]? = some (w + 1) ∧ 1 < h * w := by
  have hpos : 0 < h := by omega
  have hhw : 1 < h * w := by nlinarith
  refine ⟨(List.range (h * w + 1)).map fun i => 1 + cellIndex h w true i, ?_, by simp, ?_, ?_, hhw⟩
  · unfold createAxes
    rw [mapM_ok _ (cellIndex h w true) _ (fun i _ => dimOrder_ok hpos true i)]
    change ((List.range (h * w + 1)).map (cellIndex h w true)).mapM (fun i => subplot h w (1 + i)) = _
    rw [mapM_ok _ (fun i => 1 + i), List.map_map]
    · rfl
    · intro k hk
      obtain ⟨i, hi, rfl⟩ := List.mem_map.mp hk
      have hi := List.mem_range.mp hi
      have hlt : cellIndex h w true i < h * w := by
        rcases Nat.lt_or_ge i (h * w) with h1 | h1
        · exact cellIndex_lt hpos h1 true
        · have : i = h * w := by omega
          subst this
          simp only [cellIndex, if_true, Nat.mul_mod_right, Nat.zero_mul, Nat.zero_add, Nat.mul_div_cancel_left _ hpos]
          nlinarith
      unfold subplot
      rw [if_pos ⟨by omega, by omega⟩]
  · have : cellIndex h w true 1 = w := by
      simp [cellIndex, Nat.mod_eq_of_lt (show 1 < h by omega), Nat.div_eq_of_lt (show 1 < h by omega)]
    rw [List.getElem?_map, List.getElem?_range (by omega), Option.map_some, this, Nat.add_comm]
  · have : cellIndex h w true (h * w) = w := by
      simp [cellIndex, Nat.mul_div_cancel_left _ hpos]
    rw [List.getElem?_map, List.getElem?_range (by omega), Option.map_some, this, Nat.add_comm]

/-- C87: `plot_trajectory_in_rows` draws column `i` of the trajectory over time in the subplot of dimension `i` and nothing
else. Exactly the subplots in the last row of the grid have a label of the time axis. The time axis is limited to the
duration of the trajectory. -/
theorem C87_trajectory {d h w : ℕ} (X : List (Vec d)) (a : Args) (t : List ℝ)
    (hshape : a.subplotShape.getD (d, 1) = (h, w)) (ha : a.axes = none) (hh : 0 < h) (hd : d ≤ h * w)
    (ht : a.t = some t ∨ a.t = none ∧ t = (List.range X.length).map Nat.cast) (hlen : t.length = X.length) (hne : t ≠ [])
    (fig : Figure) :
    ∃ axes fig', (plotTrajectoryInRows X a).exec fig = (.ok axes, fig ++ fig') ∧ axes.length = d ∧ axes.Nodup
      ∧ (∀ c ∈ fig', c.1 ∈ axes)
      ∧ ∀ i : Fin d, ∃ hi : i.val < axes.length,
        gridCell w axes[i.val] = (if a.transpose then (i % h, i / h) else (i / w, i % w))
        ∧ commandsOf fig' axes[i.val] =
          [.draw (.line t (X.map fun x => x i) false a.label),
            .title (a.axisTitles.getD i ("Dimension #" ++ toString i.val)),
            if (gridCell w axes[i.val]).1 + 1 = h then .xlabel (if a.t.isSome then "Time [s]" else "Step") else .noTicks,
            .xlim (t.head hne) (t.getLast hne)] := by
  have htimes : times a X.length = t := by
    rcases ht with h | ⟨h, h'⟩ <;> simp [times, h]
    exact h'.symm
  subst htimes
  exact inRows_spec (fun i => [.draw (.line (times a X.length) (X.map fun x => x i) false a.label)]) hshape ha hh hd hne
    (fun axes i hi fig => exec_drawTrajectory hi hlen fig) fig

/-- C87: with the axes of an earlier plot, only the lines are added to the figure. -/
theorem C87_given_axes {d : ℕ} (X : List (Vec d)) (a : Args) (t : List ℝ) (axes : List ℕ) (ha : a.axes = some axes)
    (hl : axes.length = d) (ht : a.t = some t) (hlen : t.length = X.length) (fig : Figure) :
    (plotTrajectoryInRows X a).exec fig = (.ok axes, fig ++ (List.finRange d).map fun i =>
      (axes[i.val]'(hl ▸ i.isLt), .draw (.line t (X.map fun x => x i) false a.label))) := by
  have htimes : times a X.length = t := by simp [times, ht]
  unfold plotTrajectoryInRows inRows
  simp only [Py.exec_bind, ha, Py.exec_lift, htimes]
  rw [exec_forEach _ (fun i => [Cmd.draw (.line t (X.map fun x => x i) false a.label)].map
    (Prod.mk (axes[i.val]'(hl ▸ i.isLt)))) _ _ (fun i _ fig => exec_drawTrajectory (hl ▸ i.isLt) hlen fig)]
  simp
  rw [List.flatMap_def]
  induction List.finRange d with
  | nil => rfl
  | cons x l ih => simp_all

/-- C87: `plot_distribution_in_rows` draws the mean of dimension `i` and for each factor the area between mean minus and mean
plus the factor times the standard deviation. Only the first area has a label. -/
theorem C87_distribution {d h w : ℕ} (mean std : List (Vec d)) (factors : List ℝ) (color : Option String) (a : Args)
    (t : List ℝ) (hshape : a.subplotShape.getD (d, 1) = (h, w)) (ha : a.axes = none) (hh : 0 < h) (hd : d ≤ h * w)
    (hs : mean.length = std.length)
    (ht : a.t = some t ∨ a.t = none ∧ t = (List.range mean.length).map Nat.cast) (hlen : t.length = mean.length)
    (hne : t ≠ []) (fig : Figure) :
    ∃ axes fig', (plotDistributionInRows mean std factors color true a).exec fig = (.ok axes, fig ++ fig')
      ∧ axes.length = d ∧ axes.Nodup ∧ (∀ c ∈ fig', c.1 ∈ axes)
      ∧ ∀ i : Fin d, ∃ hi : i.val < axes.length,
        gridCell w axes[i.val] = (if a.transpose then (i % h, i / h) else (i / w, i % w))
        ∧ artistsOf fig' axes[i.val] = .line t (mean.map fun x => x i) false none :: factors.mapIdx fun k f =>
            .area t (List.zipWith (fun m s => m i - f * s i) mean std) (List.zipWith (fun m s => m i + f * s i) mean std)
              (if k = 0 then a.label else none) := by
  have htimes : times a mean.length = t := by
    rcases ht with h | ⟨h, h'⟩ <;> simp [times, h]
    exact h'.symm
  subst htimes
  obtain ⟨axes, fig', h1, h2, h3, h4, h5⟩ := inRows_spec
    (fun i => Cmd.draw (.line (times a mean.length) (mean.map fun x => x i) false none) ::
          factors.zipIdx.flatMap (factorCmds mean std true a.label (times a mean.length) i)) hshape ha hh hd hne
    (fun axes i hi fig => exec_drawDistribution (color := color) hi hs hlen (by simp) fig) fig
  refine ⟨axes, fig', h1, h2, h3, h4, fun i => ?_⟩
  obtain ⟨hi, h6, h7⟩ := h5 i
  refine ⟨hi, h6, ?_⟩
  unfold artistsOf
  rw [h7, List.filterMap_append]
  have e2 : (factors.zipIdx.flatMap (factorCmds mean std true a.label (times a mean.length) i)).filterMap
      artistOf = factors.mapIdx fun k f =>
            Artist.area (times a mean.length) (List.zipWith (fun m s => m i - f * s i) mean std)
              (List.zipWith (fun m s => m i + f * s i) mean std) (if k = 0 then a.label else none) := by
    rw [List.mapIdx_eq_zipIdx_map, List.filterMap_flatMap]
    induction factors.zipIdx with
    | nil => rfl
    | cons p l ih =>
      rw [List.flatMap_cons, List.map_cons, ih]
      simp [factorCmds, bound, column, List.zipWith_map, sub_eq_add_neg, artistOf]
  by_cases hrow : (gridCell w axes[i.val]).1 + 1 = h
  · simp [e2, hrow, artistOf]
  · simp [e2, hrow, artistOf]

/-- C87: the areas contain the mean and are nested: a larger factor gives a larger area, if the standard deviations are not
negative. -/
theorem C87_areas {d : ℕ} (mean std : List (Vec d)) (i : Fin d) (f g : ℝ) (hf : 0 ≤ f) (hfg : f ≤ g)
    (hstd : ∀ s ∈ std, 0 ≤ s i) (k : ℕ) (m s : Vec d) (hm : mean[k]? = some m) (hs : std[k]? = some s) :
    ∃ l u l' u', (bound (-f) mean std i)[k]? = some l ∧ (bound f mean std i)[k]? = some u
      ∧ (bound (-g) mean std i)[k]? = some l' ∧ (bound g mean std i)[k]? = some u'
      ∧ l' ≤ l ∧ l ≤ m i ∧ m i ≤ u ∧ u ≤ u' := by
  have h0 : 0 ≤ s i := hstd s (List.mem_of_getElem? hs)
  have hb : ∀ c : ℝ, (bound c mean std i)[k]? = some (m i + c * s i) := by
    intro c
    simp [bound, column, List.getElem?_zipWith, hm, hs]
  refine ⟨_, _, _, _, hb _, hb _, hb _, hb _, ?_, ?_, ?_, ?_⟩
  · nlinarith
  · nlinarith
  · nlinarith
  · nlinarith

/-- Finding (C87): dashed lines instead of areas (`fill_between=False`) need a `color`: without it a ValueError is raised. -/
theorem C87_finding_dashed_needs_color {d h w : ℕ} (mean std : List (Vec (d + 1))) (f : ℝ) (factors : List ℝ) (a : Args)
    (hshape : a.subplotShape.getD (d + 1, 1) = (h, w)) (ha : a.axes = none) (hh : 0 < h) (hd : d + 1 ≤ h * w)
    (ht : a.t = none) (fig : Figure) :
    ((plotDistributionInRows mean std (f :: factors) none false a).exec fig).1 = .error .valueError := by
  unfold plotDistributionInRows inRows
  simp only [Py.exec_bind, ha, hshape, Py.exec_lift, createAxes_ok hh hd]
  have hbody : ∀ axes : List ℕ, 0 < axes.length → ∀ is fig, ((forEach (drawDistribution mean std (f :: factors) none false a.label axes
      (times a mean.length)) ((0 : Fin (d + 1)) :: is)).exec fig).1 = .error .valueError := by
    intro axes hl is fig
    have hlen : (times a mean.length).length = (column mean (0 : Fin (d + 1))).length := by simp [times, ht, column]
    rw [forEach, Py.exec_bind]
    simp only [drawDistribution, Py.exec_bind, Py.exec_lift, axisAt_ok (i := ((0 : Fin (d + 1)) : ℕ)) hl,
      exec_line hlen, List.zipIdx_cons, forEach, drawFactor]
    simp
  rw [List.finRange_succ]
  have := hbody ((List.range (d + 1)).map fun i => 1 + cellIndex h w a.transpose i) (by simp)
    ((List.finRange d).map Fin.succ) fig
  revert this
  generalize (forEach _ _).exec fig = r
  intro this
  rcases r with ⟨r1, r2⟩
  simp only at this
  subst this
  rfl

/-- Finding (C87): only the cells of the last row of the grid can have a label of the time axis. If the last row is empty (and
the grid is filled row by row) no subplot has one. -/
theorem C87_finding_no_time_label {d h w : ℕ} (X : List (Vec d)) (a : Args) (t : List ℝ)
    (hshape : a.subplotShape = some (h + 1, w)) (ha : a.axes = none) (htr : a.transpose = false) (hd : d ≤ h * w)
    (ht : a.t = some t) (hlen : t.length = X.length) (hne : t ≠ []) :
    ∃ axes fig, (plotTrajectoryInRows X a).exec [] = (.ok axes, fig) ∧ ∀ c ∈ fig, ∀ s, c.2 ≠ .xlabel s := by
  have hd' : d ≤ (h + 1) * w := hd.trans (Nat.mul_le_mul_right _ (by omega))
  obtain ⟨axes, fig', h1, h2, h3, h4, h5⟩ := C87_trajectory X a t (by rw [hshape]; rfl) ha (Nat.succ_pos h)
    hd' (Or.inl ht) hlen hne []
  refine ⟨axes, fig', by simpa using h1, ?_⟩
  rintro ⟨ax, c⟩ hc s rfl
  obtain ⟨k, hk, hax⟩ := List.getElem_of_mem (h4 _ hc)
  simp only at hax
  obtain ⟨hi, h6, h7⟩ := h5 ⟨k, h2 ▸ hk⟩
  simp only at h6 h7
  have hmem : Cmd.xlabel s ∈ commandsOf fig' axes[k] := by
    unfold commandsOf
    exact List.mem_map.mpr ⟨(ax, .xlabel s), List.mem_filter.mpr ⟨hc, by simp [hax]⟩, rfl⟩
  rw [h7] at hmem
  have hkd : k < d := h2 ▸ hk
  have hrow : ¬ (gridCell w axes[k]).1 + 1 = h + 1 := by
    rw [h6, htr]
    simp only [Bool.false_eq_true, if_false]
    have : k / w < h := Nat.div_lt_of_lt_mul (by rw [Nat.mul_comm]; omega)
    omega
  rw [if_neg hrow] at hmem
  simp at hmem

/-- The hypotheses of the theorems are met: a trajectory of three dimensions and two steps in a grid of two rows and two
columns, filled column by column. -/
example : ∃ axes fig', (plotTrajectoryInRows [![0, 1, 2], ![3, 4, 5]] { subplotShape := some (2, 2), transpose := true }).exec []
      = (.ok axes, fig') ∧ axes.length = 3 ∧ axes.Nodup := by
  obtain ⟨axes, fig', h1, h2, h3, -⟩ := C87_trajectory (h := 2) (w := 2) [![0, 1, 2], ![3, 4, 5]]
    { subplotShape := some (2, 2), transpose := true } [0, 1] rfl rfl (by norm_num) (by norm_num)
    (Or.inr ⟨rfl, by simp [List.range_succ]⟩) rfl (by simp) []
  exact ⟨axes, fig', by simpa using h1, h2, h3⟩

/-- Dimensions 0, 1, 2 are in the cells 1 (first row, first column), 3 (second row, first column) and 2 (first row, second
column). -/
example : createAxes 3 2 2 true = .ok [1, 3, 2] := by rfl

end Verif
