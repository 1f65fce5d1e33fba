import Verif.Lemmas.Cartesian
import Verif.Model.DualCartesian

/-! # Helper lemmas about dual-arm DMPs and loops in methods -/

namespace Verif
open Spec

section Rel
variable {σ τ : Type}

/-- Two loops in lockstep: related states, equivalent guards. -/
theorem whileLoop_rel {cond : σ → Prop} {body : σ → σ} {cond' : τ → Prop} {body' : τ → τ} (R : σ → τ → Prop)
    (hc : ∀ s s', R s s' → (cond s ↔ cond' s')) (hb : ∀ s s', R s s' → cond s → R (body s) (body' s'))
    {s : σ} {s' : τ} (h : R s s') :
    (whileLoop cond body s = .error .nonterminating ∧ whileLoop cond' body' s' = .error .nonterminating) ∨
      ∃ x x', whileLoop cond body s = .ok x ∧ whileLoop cond' body' s' = .ok x' ∧ R x x' := by
  classical
  by_cases hex : ∃ n, ¬ cond (body^[n] s)
  · right
    obtain ⟨n, hn⟩ := hex
    induction n generalizing s s' with
    | zero =>
      have h0 : ¬ cond s := by simpa using hn
      exact ⟨s, s', whileLoop_done _ _ h0, whileLoop_done _ _ (fun h1 => h0 ((hc _ _ h).2 h1)), h⟩
    | succ k ih =>
      by_cases h0 : cond s
      · rw [whileLoop_step _ _ h0, whileLoop_step _ _ ((hc _ _ h).1 h0)]
        exact ih (hb _ _ h h0) (by simpa [Function.iterate_succ_apply] using hn)
      · exact ⟨s, s', whileLoop_done _ _ h0, whileLoop_done _ _ (fun h1 => h0 ((hc _ _ h).2 h1)), h⟩
  · left
    have hall : ∀ n, cond (body^[n] s) := fun n => not_not.1 fun h => hex ⟨n, h⟩
    have hR : ∀ n, R (body^[n] s) (body'^[n] s') := by
      intro n
      induction n with
      | zero => simpa using h
      | succ k ih =>
        rw [Function.iterate_succ_apply', Function.iterate_succ_apply']
        exact hb _ _ ih (hall k)
    constructor
    · unfold whileLoop; rw [dif_neg hex]
    · unfold whileLoop
      rw [dif_neg]
      rintro ⟨n, hn⟩
      exact hn ((hc _ _ (hR n)).1 (hall n))

/-- Integration loops in lockstep. -/
theorem intLoop_rel {upd : ℝ → ℝ → σ → σ} {upd' : ℝ → ℝ → τ → τ} (R : σ → τ → Prop) {intDt t : ℝ}
    (hb : ∀ dt ct s s', R s s' → R (upd dt ct s) (upd' dt ct s')) (lastT : ℝ) {s : σ} {s' : τ} (h : R s s') :
    (intLoop intDt t upd lastT s = .error .nonterminating ∧ intLoop intDt t upd' lastT s' = .error .nonterminating) ∨
      ∃ x x', intLoop intDt t upd lastT s = .ok x ∧ intLoop intDt t upd' lastT s' = .ok x' ∧ R x x' := by
  unfold intLoop
  rcases whileLoop_rel (cond := fun p : ℝ × σ => p.1 < t) (cond' := fun p : ℝ × τ => p.1 < t)
    (body := fun p => let dt := if t - p.1 < intDt then t - p.1 else intDt; (p.1 + dt, upd dt (p.1 + dt) p.2))
    (body' := fun p => let dt := if t - p.1 < intDt then t - p.1 else intDt; (p.1 + dt, upd' dt (p.1 + dt) p.2))
    (fun p p' => p.1 = p'.1 ∧ R p.2 p'.2) (by rintro p p' ⟨h1, -⟩; simp only [h1])
    (by
      rintro p p' ⟨h1, h2⟩ -
      refine ⟨by simp only [h1], ?_⟩
      simp only [h1]
      exact hb _ _ _ _ h2) (s := (lastT, s)) (s' := (lastT, s')) ⟨rfl, h⟩ with ⟨h1, h2⟩ | ⟨x, x', h1, h2, -, h3⟩
  · left; rw [h1, h2]; exact ⟨rfl, rfl⟩
  · right; rw [h1, h2]; exact ⟨x.2, x'.2, rfl, rfl, h3⟩

variable {α β : Type}

theorem Py.exec_while (cond : σ → Prop) (body : α → Py σ α) (x : α) (s : σ) :
    (Py.while cond body x).exec s =
      match whileLoop (fun p : Except PyErr α × σ => (∃ x, p.1 = .ok x) ∧ cond p.2)
        (fun p => match p.1 with
          | .ok x => (body x).exec p.2
          | .error e => (.error e, p.2)) (.ok x, s) with
      | .ok p => p
      | .error e => (.error e, s) := rfl

/-- A loop in a method whose guard is false. -/
theorem Py.exec_while_done {cond : σ → Prop} {body : α → Py σ α} {x : α} {s : σ} (h : ¬ cond s) :
    (Py.while cond body x).exec s = (.ok x, s) := by
  rw [Py.exec_while, whileLoop_done]
  rintro ⟨-, h1⟩
  exact h h1

/-- A loop in a method: the first iteration raises nothing. -/
theorem Py.exec_while_step {cond : σ → Prop} {body : α → Py σ α} {x x' y : α} {s s' t : σ} (h : cond s)
    (hb : (body x).exec s = (.ok x', s')) (hy : (Py.while cond body x').exec s' = (.ok y, t)) :
    (Py.while cond body x).exec s = (.ok y, t) := by
  rw [Py.exec_while] at hy ⊢
  rw [whileLoop_step _ _ ⟨⟨x, rfl⟩, h⟩]
  simp only [hb]
  split at hy
  · exact hy
  · cases (Prod.mk.inj hy).1

/-- Loops in methods in lockstep. -/
theorem Py.while_rel {cond : σ → Prop} {body : α → Py σ α} {cond' : τ → Prop} {body' : β → Py τ β}
    (R : α → σ → β → τ → Prop) (RE : σ → τ → Prop)
    (hc : ∀ x s x' s', R x s x' s' → (cond s ↔ cond' s'))
    (hb : ∀ x s x' s', R x s x' s' →
      (∃ y t y' t', (body x).exec s = (.ok y, t) ∧ (body' x').exec s' = (.ok y', t') ∧ R y t y' t') ∨
        ∃ e t t', (body x).exec s = (.error e, t) ∧ (body' x').exec s' = (.error e, t') ∧ RE t t')
    (hR : ∀ x s x' s', R x s x' s' → RE s s')
    {x : α} {s : σ} {x' : β} {s' : τ} (h : R x s x' s') :
    (∃ y t y' t', (Py.while cond body x).exec s = (.ok y, t) ∧ (Py.while cond' body' x').exec s' = (.ok y', t') ∧
        R y t y' t') ∨
      ∃ e t t', (Py.while cond body x).exec s = (.error e, t) ∧ (Py.while cond' body' x').exec s' = (.error e, t') ∧
        RE t t' := by
  have key := whileLoop_rel
    (cond := fun p : Except PyErr α × σ => (∃ x, p.1 = .ok x) ∧ cond p.2)
    (body := fun p => match p.1 with
        | .ok x => (body x).exec p.2
        | .error e => (.error e, p.2))
    (cond' := fun p : Except PyErr β × τ => (∃ x, p.1 = .ok x) ∧ cond' p.2)
    (body' := fun p => match p.1 with
        | .ok x => (body' x).exec p.2
        | .error e => (.error e, p.2))
    (fun p p' => (∃ x s x' s', p = (.ok x, s) ∧ p' = (.ok x', s') ∧ R x s x' s') ∨
      ∃ e s s', p = (.error e, s) ∧ p' = (.error e, s') ∧ RE s s')
    (by
      rintro p p' (⟨x, s, x', s', rfl, rfl, hr⟩ | ⟨e, s, s', rfl, rfl, -⟩)
      · have := hc _ _ _ _ hr
        simp [this]
      · simp)
    (by
      rintro p p' (⟨x, s, x', s', rfl, rfl, hr⟩ | ⟨e, s, s', rfl, rfl, hr⟩) hcnd
      · rcases hb _ _ _ _ hr with ⟨y, t, y', t', h1, h2, h3⟩ | ⟨e, t, t', h1, h2, h3⟩
        · left; exact ⟨y, t, y', t', h1, h2, h3⟩
        · right; exact ⟨e, t, t', h1, h2, h3⟩
      · right; exact ⟨e, s, s', rfl, rfl, hr⟩)
    (s := (.ok x, s)) (s' := (.ok x', s')) (.inl ⟨x, s, x', s', rfl, rfl, h⟩)
  have e1 := Py.exec_while cond body x s
  have e2 := Py.exec_while cond' body' x' s'
  rcases key with ⟨h1, h2⟩ | ⟨p, p', h1, h2, h3⟩
  · right
    rw [e1, e2, h1, h2]
    exact ⟨_, s, s', rfl, rfl, hR _ _ _ _ h⟩
  · rw [e1, e2, h1, h2]
    exact h3

/-- Invariant of a loop in a method. -/
theorem Py.while_inv {cond : σ → Prop} {body : α → Py σ α} (P : α → σ → Prop)
    (hb : ∀ x s y t, P x s → (body x).exec s = (.ok y, t) → P y t) {x y : α} {s t : σ} (h : P x s)
    (hw : (Py.while cond body x).exec s = (.ok y, t)) : P y t := by
  rcases Py.while_rel (cond := cond) (cond' := cond) (body := body) (body' := body)
    (fun x s x' s' => x = x' ∧ s = s' ∧ P x s) (fun s s' => True) (by rintro x s x' s' ⟨-, rfl, -⟩; exact Iff.rfl)
    (by
      rintro x s x' s' ⟨rfl, rfl, hP⟩
      rcases he : (body x).exec s with ⟨r, t⟩
      cases r with
      | ok y => left; exact ⟨y, t, y, t, rfl, rfl, rfl, rfl, hb _ _ _ _ hP he⟩
      | error e => right; exact ⟨e, t, t, rfl, rfl, trivial⟩)
    (fun _ _ _ _ _ => trivial) (x := x) (s := s) (x' := x) (s' := s) ⟨rfl, rfl, h⟩ with
    ⟨y0, t0, y1, t1, h1, h2, h3, h4, h5⟩ | ⟨e, t0, t1, h1, h2, -⟩
  · rw [h1] at hw
    obtain ⟨a, b⟩ := Prod.mk.inj hw
    cases a; cases b
    exact h5
  · rw [h1] at hw; cases (Prod.mk.inj hw).1

end Rel

section Arms

@[simp] theorem armPos_joinState (p : Fin 2 → Vec 3) (q : Fin 2 → Vec 4) (arm : Fin 2) :
    armPos arm (joinState p q) = p arm := by
  funext k; fin_cases arm <;> fin_cases k <;> rfl

@[simp] theorem armRot_joinState (p : Fin 2 → Vec 3) (q : Fin 2 → Vec 4) (arm : Fin 2) :
    armRot arm (joinState p q) = q arm := by
  funext k; fin_cases arm <;> fin_cases k <;> rfl

@[simp] theorem armLin_joinVel (l w : Fin 2 → Vec 3) (arm : Fin 2) : armLin arm (joinVel l w) = l arm := by
  funext k; fin_cases arm <;> fin_cases k <;> rfl

@[simp] theorem armAng_joinVel (l w : Fin 2 → Vec 3) (arm : Fin 2) : armAng arm (joinVel l w) = w arm := by
  funext k; fin_cases arm <;> fin_cases k <;> rfl

@[simp] theorem joinState_arms (y : Vec 14) : joinState (fun arm => armPos arm y) (fun arm => armRot arm y) = y := by
  funext i; fin_cases i <;> rfl

@[simp] theorem joinVel_arms (v : Vec 12) : joinVel (fun arm => armLin arm v) (fun arm => armAng arm v) = v := by
  funext i; fin_cases i <;> rfl

theorem state_ext {y y' : Vec 14} (hp : ∀ arm, armPos arm y = armPos arm y') (hr : ∀ arm, armRot arm y = armRot arm y') :
    y = y' := by
  rw [← joinState_arms y, ← joinState_arms y', funext hp, funext hr]

theorem vel_ext {v v' : Vec 12} (hp : ∀ arm, armLin arm v = armLin arm v') (hr : ∀ arm, armAng arm v = armAng arm v') :
    v = v' := by
  rw [← joinVel_arms v, ← joinVel_arms v', funext hp, funext hr]

end Arms
end Verif
