import Verif.Lemmas.Py
import Verif.Spec.Execution
import Verif.Model.DmpStep

/-! # Invariants and products of loops, executions of memoryless steps -/

namespace Verif
variable {σ τ : Type}

theorem whileLoop_inv {cond : σ → Prop} {body : σ → σ} {P : σ → Prop} (hb : ∀ s, P s → P (body s)) {s s' : σ}
    (hs : P s) (h : whileLoop cond body s = .ok s') : P s' := by
  unfold whileLoop at h
  split_ifs at h with hex
  · simp only [Except.ok.injEq] at h
    rw [← h]
    have hn : ∀ n, P (body^[n] s) := by
      intro n
      induction n with
      | zero => exact hs
      | succ n ih => rw [Function.iterate_succ_apply']; exact hb _ ih
    exact hn _

theorem intLoop_inv {upd : ℝ → ℝ → σ → σ} {P : σ → Prop} (hb : ∀ dt t s, P s → P (upd dt t s)) {intDt t lastT : ℝ}
    {s s' : σ} (hs : P s) (h : intLoop intDt t upd lastT s = .ok s') : P s' := by
  unfold intLoop at h
  cases hw : whileLoop (fun p : ℝ × σ => p.1 < t)
    (fun p =>
      let dt := if t - p.1 < intDt then t - p.1 else intDt
      (p.1 + dt, upd dt (p.1 + dt) p.2)) (lastT, s) with
  | error e => rw [hw] at h; cases h
  | ok r =>
    rw [hw] at h
    simp only [Except.map, Except.ok.injEq] at h
    rw [← h]
    exact whileLoop_inv (P := fun p : ℝ × σ => P p.2) (fun p hp => hb _ _ _ hp) hs hw

/-- A state that every sub-step leaves unchanged is left unchanged by the loop, unless it does not terminate. -/
theorem intLoop_fixed {upd : ℝ → ℝ → σ → σ} {intDt t lastT : ℝ} {s s' : σ} (hb : ∀ dt t, upd dt t s = s)
    (h : intLoop intDt t upd lastT s = .ok s') : s' = s :=
  intLoop_inv (P := fun x => x = s) (by rintro dt t _ rfl; exact hb dt t) rfl h

theorem loopRows_forall {β : Type} {step : ℕ → σ → Except PyErr σ} {out : σ → β} {P : σ → Prop} {Q : β → Prop}
    (hstep : ∀ i s s', P s → step i s = .ok s' → P s') (hout : ∀ s, P s → Q (out s)) :
    ∀ (k : ℕ) (s : σ) (i : ℕ) (rows : List β), P s → loopRows step out k s i = .ok rows → ∀ b ∈ rows, Q b := by
  intro k
  induction k with
  | zero =>
    intro s i rows _ h
    simp only [loopRows, Except.ok.injEq] at h
    simp [← h]
  | succ k ih =>
    intro s i rows hs h
    simp only [loopRows, bind, Except.bind] at h
    cases h1 : step i s with
    | error e => rw [h1] at h; cases h
    | ok s1 =>
      rw [h1] at h
      simp only at h
      have hs1 := hstep i s s1 hs h1
      cases h2 : loopRows step out k s1 (i + 1) with
      | error e => rw [h2] at h; cases h
      | ok rest =>
        rw [h2] at h
        simp only [pure, Except.pure, Except.ok.injEq] at h
        rw [← h]
        intro b hb
        rcases List.mem_cons.1 hb with rfl | hb
        · exact hout s1 hs1
        · exact ih s1 (i + 1) rest hs1 h2 b hb

theorem loopRows_length {β : Type} {step : ℕ → σ → Except PyErr σ} {out : σ → β} {k : ℕ} {s : σ} {i : ℕ}
    {rows : List β} (h : loopRows step out k s i = .ok rows) : rows.length = k :=
  (loopRows_get step out k s i rows h).1

/-- A loop over pairs, whose components do not interact, is a pair of loops. -/
theorem loopRows_prod {β γ : Type} (f : ℕ → σ → Except PyErr σ) (g : ℕ → τ → Except PyErr τ) (o : σ → β) (o' : τ → γ) :
    ∀ (k : ℕ) (s : σ) (t : τ) (i : ℕ) (rows : List (β × γ)),
      loopRows (fun i (p : σ × τ) => (f i p.1).bind fun a => (g i p.2).map fun b => (a, b))
          (fun p => (o p.1, o' p.2)) k (s, t) i = .ok rows ↔
        ∃ ra rb, loopRows f o k s i = .ok ra ∧ loopRows g o' k t i = .ok rb ∧ rows = ra.zip rb := by
  intro k
  induction k with
  | zero =>
    intro s t i rows
    simp only [loopRows, Except.ok.injEq]
    constructor
    · rintro rfl; exact ⟨[], [], rfl, rfl, rfl⟩
    · rintro ⟨ra, rb, rfl, rfl, rfl⟩; rfl
  | succ k ih =>
    intro s t i rows
    simp only [loopRows, bind, Except.bind]
    cases h1 : f i s with
    | error e => simp
    | ok s1 =>
      simp only
      cases h2 : g i t with
      | error e => simp [Except.map]
      | ok t1 =>
        simp only [Except.map]
        cases h3 : loopRows (fun i (p : σ × τ) => (f i p.1).bind fun a => (g i p.2).map fun b => (a, b))
          (fun p => (o p.1, o' p.2)) k (s1, t1) (i + 1) with
        | error e =>
          simp only [Except.bind, Except.map] at h3
          rw [h3]
          simp only [reduceCtorEq, false_iff]
          rintro ⟨ra, rb, ha, hb, -⟩
          cases ha1 : loopRows f o k s1 (i + 1) with
          | error e => rw [ha1] at ha; cases ha
          | ok xa =>
            cases hb1 : loopRows g o' k t1 (i + 1) with
            | error e => rw [hb1] at hb; cases hb
            | ok xb =>
              have := (ih s1 t1 (i + 1) (xa.zip xb)).2 ⟨xa, xb, ha1, hb1, rfl⟩
              simp only [Except.bind, Except.map] at this
              rw [h3] at this
              cases this
        | ok rest =>
          obtain ⟨xa, xb, ha1, hb1, hz⟩ := (ih s1 t1 (i + 1) rest).1 h3
          simp only [Except.bind, Except.map] at h3
          rw [h3, ha1, hb1]
          simp only [pure, Except.pure, Except.ok.injEq]
          constructor
          · rintro rfl
            exact ⟨_, _, rfl, rfl, by rw [hz, List.zip_cons_cons]⟩
          · rintro ⟨ra, rb, rfl, rfl, rfl⟩
            rw [hz, List.zip_cons_cons]

/-- If the result of `step` only depends on the number of calls so far and on the passed state, execution with fed back
results is a loop. `Inv i` holds for the object before call `i`. -/
theorem fedBack_memoryless {p v : ℕ} (step : Vec p → Vec v → Py σ (Vec p × Vec v))
    (f : ℕ → Vec p × Vec v → Except PyErr (Vec p × Vec v)) (Inv : ℕ → σ → Prop)
    (h : ∀ i s y yd, Inv i s → ((step y yd).exec s).1 = f i (y, yd) ∧
      (∀ r, f i (y, yd) = .ok r → Inv (i + 1) ((step y yd).exec s).2)) :
    ∀ (n i : ℕ) (s : σ) (x : Vec p × Vec v), Inv i s →
      ((Spec.fedBack step n x.1 x.2).exec s).1 = loopRows f id n x i := by
  intro n
  induction n with
  | zero => intro i s x _; rfl
  | succ n ih =>
    intro i s x hs
    simp only [Spec.fedBack, loopRows, Py.exec_bind, Py.exec_pure]
    obtain ⟨h1, h2⟩ := h i s x.1 x.2 hs
    rcases hr : (step x.1 x.2).exec s with ⟨r, s1⟩
    rw [hr] at h1 h2
    simp only at h1 h2
    rw [← h1]
    cases r with
    | error e => rfl
    | ok r =>
      simp only [bind, Except.bind]
      have hi := ih (i + 1) s1 r (h2 r h1.symm)
      rcases hf : (Spec.fedBack step n r.1 r.2).exec s1 with ⟨y, s2⟩
      rw [hf] at hi
      simp only at hi
      rw [← hi]
      cases y <;> rfl

/-- `open_loop` over `n * dt` seconds as a loop over states. -/
theorem openLoopWith_eq {p v : ℕ} {goalT dt : ℝ} (hdt : 0 < dt) (start : Vec p × Vec v)
    (step : ℝ → ℝ → Vec p × Vec v → Except PyErr (Vec p × Vec v)) (n : ℕ) :
    openLoopWith goalT 0 dt start (some (n * dt)) step =
      (loopRows (fun i x => step (i * dt) ((i + 1 : ℕ) * dt) x) id n start 0).map
        (fun rows => ((List.range (n + 1)).map (fun i : ℕ => i * dt), start.1 :: rows.map Prod.fst)) := by
  have hlen : arangeLen 0 (n * dt + dt) dt = n + 1 := by
    unfold arangeLen
    rw [sub_zero, show (n : ℝ) * dt + dt = (n + 1 : ℕ) * dt by push_cast; ring,
      mul_div_assoc, div_self hdt.ne', mul_one, Nat.ceil_natCast]
  have hat : ∀ i, arangeAt 0 dt i = i * dt := fun i => by simp [arangeAt]
  simp only [openLoopWith, Option.getD_some, hdt.ne', if_false, hlen, Nat.add_sub_cancel, hat,
    Nat.succ_ne_zero, bind, Except.bind, pure, Except.pure]
  have hmap := loopRows_map
    (fun i x => step (i * dt) ((i + 1 : ℕ) * dt) x) (fun i x => step (i * dt) ((i + 1 : ℕ) * dt) x)
    id Prod.fst id Prod.fst
    (fun i x => by simp only [id]; cases step _ _ x <;> rfl) (fun x => rfl) n start 0
  simp only [id] at hmap
  rw [hmap]
  cases loopRows (fun i x => step (i * dt) ((i + 1 : ℕ) * dt) x) id n start 0 with
  | error e => rfl
  | ok rows =>
    simp only [Except.map]
    congr 2
    exact List.map_congr_left fun i _ => hat i

/-- All rows of an open loop have a property that holds initially and is preserved by steps. -/
theorem openLoopWith_forall {p v : ℕ} {goalT startT dt : ℝ} {start : Vec p × Vec v} {runT : Option ℝ}
    {step : ℝ → ℝ → Vec p × Vec v → Except PyErr (Vec p × Vec v)} {P : Vec p × Vec v → Prop} {Q : Vec p → Prop}
    (h0 : P start) (hQ : ∀ s, P s → Q s.1)
    (hstep : ∀ a b s s', P s → step a b s = .ok s' → P s') {T : List ℝ} {Y : List (Vec p)}
    (h : openLoopWith goalT startT dt start runT step = .ok (T, Y)) : ∀ y ∈ Y, Q y := by
  unfold openLoopWith at h
  simp only [bind, Except.bind] at h
  by_cases h1 : dt = 0
  · rw [if_pos h1] at h; cases h
  rw [if_neg h1] at h
  simp only [pure, Except.pure] at h
  by_cases h2 : arangeLen startT (runT.getD goalT + dt) dt = 0
  · rw [if_pos h2] at h; cases h
  rw [if_neg h2] at h
  cases hl : loopRows (fun i s => step (arangeAt startT dt i) (arangeAt startT dt (i + 1)) s) Prod.fst
    (arangeLen startT (runT.getD goalT + dt) dt - 1) start 0 with
  | error e => simp [hl] at h
  | ok rows =>
    simp only [hl, Except.ok.injEq, Prod.mk.injEq] at h
    intro y hy
    rw [← h.2] at hy
    rcases List.mem_cons.1 hy with rfl | hy
    · exact hQ _ h0
    · exact loopRows_forall (P := P) (Q := Q) (fun i s s' hs hst => hstep _ _ s s' hs hst) hQ _ _ _ _ h0 hl y hy

theorem loopRows_total {β : Type} {σ : Type} {step : ℕ → σ → Except PyErr σ} {nxt : ℕ → σ → σ}
    (h : ∀ i x, step i x = .ok (nxt i x)) (out : σ → β) :
    ∀ (n : ℕ) (x : σ) (i : ℕ), ∃ rows, loopRows step out n x i = .ok rows ∧ rows.length = n ∧
      ∀ (xs : ℕ → σ), xs i = x → (∀ j, xs (j + 1) = nxt j (xs j)) →
        ∀ j (hj : j < rows.length), rows[j] = out (xs (i + j + 1)) := by
  intro n
  induction n with
  | zero => intro x i; exact ⟨[], rfl, rfl, fun _ _ _ j hj => absurd hj (by simp)⟩
  | succ n ih =>
    intro x i
    obtain ⟨rows, h1, h2, h3⟩ := ih (nxt i x) (i + 1)
    refine ⟨out (nxt i x) :: rows, ?_, by simp [h2], ?_⟩
    · simp only [loopRows, h, bind, Except.bind, h1, pure, Except.pure]
    · intro xs h0 hs j hj
      cases j with
      | zero => simp only [List.getElem_cons_zero, Nat.add_zero]; rw [hs, h0]
      | succ j =>
        simp only [List.getElem_cons_succ]
        rw [h3 xs (by rw [hs, h0]) hs j (by simpa using hj)]
        congr 2
        omega

/-- An open-loop execution whose step function never raises: its rows are the iterates of the step function. -/
theorem openLoopWith_total {p v : ℕ} {goalT startT dt : ℝ} (hdt : dt ≠ 0) {start : Vec p × Vec v} {runT : Option ℝ}
    {step : ℝ → ℝ → Vec p × Vec v → Except PyErr (Vec p × Vec v)} {nxt : ℕ → Vec p × Vec v → Vec p × Vec v}
    (hstep : ∀ i x, step (arangeAt startT dt i) (arangeAt startT dt (i + 1)) x = .ok (nxt i x))
    {xs : ℕ → Vec p × Vec v} (h0 : xs 0 = start) (hxs : ∀ j, xs (j + 1) = nxt j (xs j)) :
    openLoopWith goalT startT dt start runT step =
      if arangeLen startT (runT.getD goalT + dt) dt = 0 then .error .indexError
      else .ok ((List.range (arangeLen startT (runT.getD goalT + dt) dt)).map (arangeAt startT dt),
        (List.range (arangeLen startT (runT.getD goalT + dt) dt)).map (fun i => (xs i).1)) := by
  unfold openLoopWith
  simp only [bind, Except.bind]
  rw [if_neg hdt]
  by_cases hn : arangeLen startT (runT.getD goalT + dt) dt = 0
  · rw [if_pos hn]
    simp only [pure, Except.pure, hn, if_true]
    rfl
  · rw [if_neg hn]
    obtain ⟨rows, h1, h2, h3⟩ := loopRows_total hstep Prod.fst (arangeLen startT (runT.getD goalT + dt) dt - 1) start 0
    simp only [pure, Except.pure, hn, if_false]
    rw [h1]
    simp only [Except.ok.injEq, Prod.mk.injEq, true_and]
    apply List.ext_getElem
    · simp [h2]; omega
    · intro i hi1 hi2
      cases i with
      | zero => simp [h0]
      | succ j =>
        simp only [List.getElem_cons_succ, List.getElem_map, List.getElem_range]
        rw [h3 xs h0 hxs j (by simpa using hi1), Nat.zero_add]

end Verif
