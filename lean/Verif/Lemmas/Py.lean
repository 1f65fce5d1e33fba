import Verif.Py
import Mathlib.Algebra.Order.Floor.Ring
import Mathlib.Algebra.Order.Archimedean.Real.Basic
import Mathlib.Algebra.Order.Floor.Semiring
import Mathlib.Tactic.Linarith
import Mathlib.Tactic.FieldSimp
import Mathlib.Tactic.Ring
import Mathlib.Algebra.BigOperators.Group.List.Basic

/-! # Helper lemmas about methods, loops and sub-steps -/

namespace Verif

section Exec
variable {σ τ α β : Type}

@[simp] theorem Py.exec_pure (a : α) (s : σ) : (pure a : Py σ α).exec s = (.ok a, s) := rfl

theorem Py.exec_bind (m : Py σ α) (f : α → Py σ β) (s : σ) :
    (m >>= f).exec s = match m.exec s with
      | (.ok a, s') => (f a).exec s'
      | (.error e, s') => (.error e, s') := by
  simp only [Py.exec, bind, ExceptT.bind, ExceptT.mk, ExceptT.run, StateT.bind]
  rcases h : m s with ⟨r, s'⟩
  cases r <;> simp [ExceptT.bindCont, pure, StateT.pure]

@[simp] theorem Py.exec_modify (f : σ → σ) (s : σ) : (modify f : Py σ PUnit).exec s = (.ok (), f s) := rfl

@[simp] theorem Py.exec_get (s : σ) : (get : Py σ σ).exec s = (.ok s, s) := rfl

@[simp] theorem Py.exec_throw (e : PyErr) (s : σ) : (throw e : Py σ α).exec s = (.error e, s) := rfl

@[simp] theorem Py.exec_lift (e : Except PyErr α) (s : σ) : (Py.lift e : Py σ α).exec s = (e, s) := rfl

@[simp] theorem Py.exec_zoom (g : σ → τ) (st : τ → σ → σ) (m : Py τ α) (s : σ) :
    (Py.zoom g st m).exec s = ((m.exec (g s)).1, st (m.exec (g s)).2 s) := rfl

end Exec

section While
variable {σ : Type} (cond : σ → Prop) (body : σ → σ)

theorem whileLoop_done {s : σ} (h : ¬ cond s) : whileLoop cond body s = .ok s := by
  classical
  have hex : ∃ n, ¬ cond (body^[n] s) := ⟨0, by simpa using h⟩
  unfold whileLoop
  rw [dif_pos hex]
  have : Nat.find hex = 0 := by
    rw [Nat.find_eq_zero]; simpa using h
  rw [this]; rfl

theorem whileLoop_step {s : σ} (h : cond s) :
    whileLoop cond body s = whileLoop cond body (body s) := by
  classical
  unfold whileLoop
  by_cases hex : ∃ n, ¬ cond (body^[n] s)
  · have hex' : ∃ n, ¬ cond (body^[n] (body s)) := by
      obtain ⟨n, hn⟩ := hex
      cases n with
      | zero => exact absurd h (by simpa using hn)
      | succ k => exact ⟨k, by simpa [Function.iterate_succ_apply] using hn⟩
    rw [dif_pos hex, dif_pos hex']
    have hfind : Nat.find hex = Nat.find hex' + 1 := by
      have := Nat.find_comp_succ (p := fun n => ¬ cond (body^[n] s)) hex
        (by simpa [Function.iterate_succ_apply] using hex') (by simpa using h)
      simpa [Function.iterate_succ_apply] using this
    rw [hfind, Function.iterate_succ_apply]
  · have hex' : ¬ ∃ n, ¬ cond (body^[n] (body s)) := by
      rintro ⟨n, hn⟩
      exact hex ⟨n + 1, by simpa [Function.iterate_succ_apply] using hn⟩
    rw [dif_neg hex, dif_neg hex']

theorem whileLoop_diverges {s : σ} (inv : σ → Prop) (h0 : inv s)
    (hstep : ∀ s, inv s → inv (body s)) (hc : ∀ s, inv s → cond s) :
    whileLoop cond body s = .error .nonterminating := by
  classical
  have hinv : ∀ n, inv (body^[n] s) := by
    intro n
    induction n with
    | zero => simpa using h0
    | succ k ih => rw [Function.iterate_succ_apply']; exact hstep _ ih
  unfold whileLoop
  rw [dif_neg]
  rintro ⟨n, hn⟩
  exact hn (hc _ (hinv n))

end While

section Sim
variable {σ τ : Type}

/-- Simulation: if `φ` commutes with the loop body and the guard, it commutes with the loop. -/
theorem whileLoop_map (cond : σ → Prop) (body : σ → σ) (cond' : τ → Prop) (body' : τ → τ) (φ : σ → τ)
    (hc : ∀ s, cond' (φ s) ↔ cond s) (hb : ∀ s, cond s → body' (φ s) = φ (body s)) (s : σ) :
    whileLoop cond' body' (φ s) = (whileLoop cond body s).map φ := by
  classical
  by_cases hex : ∃ n, ¬ cond (body^[n] s)
  · obtain ⟨n, hn⟩ := hex
    induction n generalizing s with
    | zero =>
      have h : ¬ cond s := by simpa using hn
      rw [whileLoop_done _ _ h, whileLoop_done _ _ (by rwa [hc])]; rfl
    | succ k ih =>
      by_cases h : cond s
      · rw [whileLoop_step _ _ h, whileLoop_step cond' body' ((hc s).2 h), hb s h]
        exact ih _ (by simpa [Function.iterate_succ_apply] using hn)
      · rw [whileLoop_done _ _ h, whileLoop_done _ _ (by rwa [hc])]; rfl
  · have hall : ∀ n, cond (body^[n] s) := fun n => not_not.1 fun h => hex ⟨n, h⟩
    have h1 : whileLoop cond body s = .error .nonterminating := by
      unfold whileLoop; rw [dif_neg hex]
    have hit : ∀ n, body'^[n] (φ s) = φ (body^[n] s) := by
      intro n
      induction n with
      | zero => rfl
      | succ k ih => rw [Function.iterate_succ_apply', Function.iterate_succ_apply', ih, hb _ (hall k)]
    have h2 : whileLoop cond' body' (φ s) = .error .nonterminating := by
      unfold whileLoop
      rw [dif_neg]
      rintro ⟨n, hn⟩
      rw [hit, hc] at hn
      exact hn (hall n)
    rw [h1, h2]; rfl

/-- Simulation for the integration loop, with times scaled by `c > 0`. -/
theorem intLoop_map_scale (upd : ℝ → ℝ → σ → σ) (upd' : ℝ → ℝ → τ → τ) (φ : σ → τ) {c : ℝ} (hc : 0 < c)
    (intDt t : ℝ)
    (h : ∀ dt ct s, upd' (c * dt) (c * ct) (φ s) = φ (upd dt ct s)) (lastT : ℝ) (s : σ) :
    intLoop (c * intDt) (c * t) upd' (c * lastT) (φ s) = (intLoop intDt t upd lastT s).map φ := by
  unfold intLoop
  rw [show ((c * lastT, φ s) : ℝ × τ) = (fun p : ℝ × σ => (c * p.1, φ p.2)) (lastT, s) from rfl,
    whileLoop_map (fun p : ℝ × σ => p.1 < t) _ (fun p : ℝ × τ => p.1 < c * t) _
      (fun p : ℝ × σ => (c * p.1, φ p.2))]
  · cases whileLoop _ _ (lastT, s) <;> rfl
  · intro p
    simp only
    exact mul_lt_mul_iff_right₀ hc
  · rintro ⟨x, s⟩ _
    simp only
    have h1 : (c * t - c * x < c * intDt) ↔ (t - x < intDt) := by
      rw [← mul_sub]; exact mul_lt_mul_iff_right₀ hc
    have h2 : (if c * t - c * x < c * intDt then c * t - c * x else c * intDt) =
        c * (if t - x < intDt then t - x else intDt) := by
      simp only [h1]
      split_ifs <;> ring
    rw [h2, ← mul_add, h]

theorem intLoop_map (upd : ℝ → ℝ → σ → σ) (upd' : ℝ → ℝ → τ → τ) (φ : σ → τ) (intDt t : ℝ)
    (h : ∀ dt ct s, upd' dt ct (φ s) = φ (upd dt ct s)) (lastT : ℝ) (s : σ) :
    intLoop intDt t upd' lastT (φ s) = (intLoop intDt t upd lastT s).map φ := by
  have := intLoop_map_scale upd upd' φ one_pos intDt t (by simpa using h) lastT s
  simpa using this

/-- State after `n` iterations of the loop modelled by `loopRows`. -/
def loopState (step : ℕ → σ → Except PyErr σ) : ℕ → σ → ℕ → Except PyErr σ
  | 0, s, _ => .ok s
  | n + 1, s, i => do
    let s' ← step i s
    loopState step n s' (i + 1)

theorem loopRows_get {β : Type} (step : ℕ → σ → Except PyErr σ) (out : σ → β) :
    ∀ (k : ℕ) (s : σ) (i : ℕ) (rows : List β), loopRows step out k s i = .ok rows →
      rows.length = k ∧ ∀ j (h : j < rows.length),
        ∃ s', loopState step (j + 1) s i = .ok s' ∧ out s' = rows[j] := by
  intro k
  induction k with
  | zero =>
    intro s i rows h
    simp only [loopRows, Except.ok.injEq] at h
    subst h
    exact ⟨rfl, fun j h => absurd h (by simp)⟩
  | succ k ih =>
    intro s i rows h
    rw [loopRows] at h
    cases hs : step i s with
    | error e => rw [hs] at h; cases h
    | ok s' =>
      rw [hs] at h
      simp only [bind, Except.bind] at h
      cases hr : loopRows step out k s' (i + 1) with
      | error e => rw [hr] at h; cases h
      | ok rest =>
        rw [hr] at h
        simp only [pure, Except.pure, Except.ok.injEq] at h
        subst h
        obtain ⟨h1, h2⟩ := ih _ _ _ hr
        refine ⟨by simp [h1], ?_⟩
        intro j hj
        cases j with
        | zero =>
          exact ⟨s', by simp [loopState, hs, bind, Except.bind], rfl⟩
        | succ j =>
          obtain ⟨s'', h3, h4⟩ := h2 j (by simpa using hj)
          refine ⟨s'', ?_, by simpa using h4⟩
          rw [loopState, hs]
          exact h3

theorem loopRows_ok {β : Type} (step : ℕ → σ → Except PyErr σ) (out : σ → β) :
    ∀ (k : ℕ) (s : σ) (i : ℕ), (∃ s', loopState step k s i = .ok s') →
      ∃ rows, loopRows step out k s i = .ok rows := by
  intro k
  induction k with
  | zero => intro s i _; exact ⟨[], rfl⟩
  | succ k ih =>
    rintro s i ⟨s', h⟩
    rw [loopState] at h
    cases hs : step i s with
    | error e => rw [hs] at h; cases h
    | ok s1 =>
      rw [hs] at h
      obtain ⟨rows, hr⟩ := ih s1 (i + 1) ⟨s', h⟩
      refine ⟨out s1 :: rows, ?_⟩
      rw [loopRows, hs]
      simp only [bind, Except.bind, hr]
      rfl

theorem loopRows_map {β γ : Type} (step : ℕ → σ → Except PyErr σ) (step' : ℕ → τ → Except PyErr τ)
    (out : σ → β) (out' : τ → γ) (φ : σ → τ) (ψ : β → γ)
    (hstep : ∀ i s, step' i (φ s) = (step i s).map φ) (hout : ∀ s, out' (φ s) = ψ (out s)) :
    ∀ (k : ℕ) (s : σ) (i : ℕ),
      loopRows step' out' k (φ s) i = (loopRows step out k s i).map (List.map ψ) := by
  intro k
  induction k with
  | zero => intro s i; rfl
  | succ k ih =>
    intro s i
    simp only [loopRows, hstep]
    cases hs : step i s with
    | error e => rfl
    | ok s1 =>
      simp only [Except.map, bind, Except.bind, ih]
      cases hr : loopRows step out k s1 (i + 1) with
      | error e => simp
      | ok rows => simp [pure, Except.pure, hout]

end Sim

/-- Number of sub-steps of the integration loop. -/
noncomputable def nSub (intDt t lastT : ℝ) : ℕ := ⌈(t - lastT) / intDt⌉₊

/-- Sub-steps `(dt, current_t)` of the integration loop. -/
noncomputable def subSteps (intDt t lastT : ℝ) : List (ℝ × ℝ) :=
  (List.range (nSub intDt t lastT)).map fun i =>
    if i + 1 < nSub intDt t lastT then (intDt, lastT + (i + 1) * intDt)
    else (t - (lastT + i * intDt), t)

section IntLoop
variable {σ : Type} (upd : ℝ → ℝ → σ → σ)

theorem intLoop_done {intDt t lastT : ℝ} (h : t ≤ lastT) (s : σ) :
    intLoop intDt t upd lastT s = .ok s := by
  unfold intLoop
  rw [whileLoop_done _ _ (by simpa using h)]
  rfl

theorem intLoop_step {intDt t lastT : ℝ} (h : lastT < t) (s : σ) :
    intLoop intDt t upd lastT s =
      let dt := if t - lastT < intDt then t - lastT else intDt
      intLoop intDt t upd (lastT + dt) (upd dt (lastT + dt) s) := by
  conv_lhs => unfold intLoop
  rw [whileLoop_step _ _ (by simpa using h)]
  rfl

theorem nSub_zero {intDt t lastT : ℝ} (hd : 0 < intDt) : nSub intDt t lastT = 0 ↔ t ≤ lastT := by
  unfold nSub
  rw [Nat.ceil_eq_zero, div_nonpos_iff]
  constructor
  · rintro (h | h)
    · linarith
    · linarith
  · intro h; right; constructor <;> linarith

theorem nSub_one {intDt t lastT : ℝ} (hd : 0 < intDt) (h : lastT < t) (h2 : t - lastT ≤ intDt) :
    nSub intDt t lastT = 1 := by
  unfold nSub
  rw [Nat.ceil_eq_iff (by norm_num)]
  constructor
  · simpa using div_pos (by linarith) hd
  · rw [div_le_iff₀ hd]; simpa using h2

theorem nSub_succ {intDt t lastT : ℝ} (hd : 0 < intDt) (h2 : intDt ≤ t - lastT) :
    nSub intDt t lastT = nSub intDt t (lastT + intDt) + 1 := by
  unfold nSub
  have h1 : (t - lastT) / intDt = (t - (lastT + intDt)) / intDt + 1 := by field_simp; ring
  rw [h1]
  have h0 : 0 ≤ (t - (lastT + intDt)) / intDt := div_nonneg (by linarith) hd.le
  exact_mod_cast Nat.ceil_add_natCast h0 1

theorem subSteps_of_le {intDt t lastT : ℝ} (hd : 0 < intDt) (h : t ≤ lastT) :
    subSteps intDt t lastT = [] := by
  unfold subSteps
  rw [(nSub_zero hd).2 h]; rfl

theorem subSteps_last {intDt t lastT : ℝ} (hd : 0 < intDt) (h : lastT < t) (h2 : t - lastT ≤ intDt) :
    subSteps intDt t lastT = [(t - lastT, t)] := by
  unfold subSteps
  rw [nSub_one hd h h2]; simp

theorem subSteps_cons {intDt t lastT : ℝ} (hd : 0 < intDt) (h2 : intDt < t - lastT) :
    subSteps intDt t lastT = (intDt, lastT + intDt) :: subSteps intDt t (lastT + intDt) := by
  unfold subSteps
  rw [nSub_succ hd h2.le, List.range_succ_eq_map, List.map_cons, List.map_map]
  have hpos : 0 < nSub intDt t (lastT + intDt) := by
    rw [Nat.pos_iff_ne_zero, Ne, nSub_zero hd]; linarith
  congr 1
  · simp [hpos]
  · apply List.map_congr_left
    intro i _
    simp only [Function.comp_apply, Nat.add_lt_add_iff_right, Nat.succ_eq_add_one]
    split_ifs
    · simp only [Nat.cast_add, Nat.cast_one, Prod.mk.injEq, true_and]; ring
    · simp only [Nat.cast_add, Nat.cast_one, Prod.mk.injEq, and_true]; ring

/-- Closed form of the integration loop. -/
theorem intLoop_eq {intDt t : ℝ} (hd : 0 < intDt) : ∀ (lastT : ℝ) (s : σ),
    intLoop intDt t upd lastT s = .ok ((subSteps intDt t lastT).foldl (fun s p => upd p.1 p.2 s) s) := by
  suffices H : ∀ (n : ℕ) (lastT : ℝ) (s : σ), nSub intDt t lastT = n →
      intLoop intDt t upd lastT s =
        .ok ((subSteps intDt t lastT).foldl (fun s p => upd p.1 p.2 s) s) from
    fun lastT s => H _ lastT s rfl
  intro n
  induction n with
  | zero =>
    intro lastT s hn
    have h := (nSub_zero hd).1 hn
    rw [intLoop_done upd h, subSteps_of_le hd h]; rfl
  | succ k ih =>
    intro lastT s hn
    have h : lastT < t := by
      by_contra hc
      rw [(nSub_zero hd).2 (by linarith)] at hn; omega
    rw [intLoop_step upd h]
    by_cases h2 : t - lastT ≤ intDt
    · have hdt : (if t - lastT < intDt then t - lastT else intDt) = t - lastT := by
        split_ifs with h3
        · rfl
        · linarith
      simp only [hdt]
      rw [show lastT + (t - lastT) = t by ring, intLoop_done upd le_rfl, subSteps_last hd h h2]; rfl
    · have h3 : intDt < t - lastT := by linarith
      have hdt : (if t - lastT < intDt then t - lastT else intDt) = intDt := by
        rw [if_neg]; linarith
      simp only [hdt]
      have := nSub_succ hd h3.le
      rw [ih _ _ (by omega), subSteps_cons hd h3]; rfl

theorem intLoop_diverges {intDt t lastT : ℝ} (hd : intDt ≤ 0) (h : lastT < t) (s : σ) :
    intLoop intDt t upd lastT s = .error .nonterminating := by
  unfold intLoop
  rw [whileLoop_diverges _ _ (fun p : ℝ × σ => p.1 < t) h]
  · rfl
  · rintro ⟨x, s⟩ hx
    simp only at hx ⊢
    rw [if_neg (by linarith)]; linarith
  · exact fun s hs => hs

end IntLoop

end Verif
