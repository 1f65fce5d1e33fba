import Verif.Spec.Execution
import Verif.Spec.OpenLoop
import Verif.Lemmas.Dual

/-! # `open_loop` and repeated calls of `step` -/

namespace Verif
open Spec
variable {σ : Type} {p v : ℕ}

/-- Repeated calls of a `step` that simulates a step function. -/
theorem fedBack_loopRows (step : Vec p → Vec v → Py σ (Vec p × Vec v))
    (next : ℕ → Vec p × Vec v → Except PyErr (Vec p × Vec v)) (Inv : ℕ → σ → Vec p × Vec v → Prop)
    (h : ∀ i s x, Inv i s x → ∃ s', (step x.1 x.2).exec s = (next i x, s') ∧ ∀ r, next i x = .ok r → Inv (i + 1) s' r) :
    ∀ (n i : ℕ) (s : σ) (x : Vec p × Vec v), Inv i s x →
      ((fedBack step n x.1 x.2).exec s).1 = loopRows next id n x i := by
  intro n
  induction n with
  | zero => intro i s x _; rfl
  | succ n ih =>
    intro i s x hx
    obtain ⟨s', h1, h2⟩ := h i s x hx
    rw [fedBack, Py.exec_bind, h1, loopRows]
    cases hn : next i x with
    | error e => rfl
    | ok r =>
      have := ih (i + 1) s' r (h2 r hn)
      simp only
      rw [Py.exec_bind]
      show _ = (loopRows next id n r (i + 1)).bind fun rest => .ok (r :: rest)
      rw [← this]
      rcases (fedBack step n r.1 r.2).exec s' with ⟨_ | rows, s2⟩ <;> rfl

/-- Fewer calls give a prefix of the results. -/
theorem fedBack_prefix (step : Vec p → Vec v → Py σ (Vec p × Vec v)) : ∀ (n n' : ℕ), n ≤ n' →
    ∀ (y : Vec p) (yd : Vec v) (s : σ) (rows rows' : List (Vec p × Vec v)), ((fedBack step n y yd).exec s).1 = .ok rows →
      ((fedBack step n' y yd).exec s).1 = .ok rows' → rows <+: rows' := by
  intro n
  induction n with
  | zero =>
    intro n' _ y yd s rows rows' h _
    cases h
    exact List.nil_prefix
  | succ n ih =>
    intro n' hn y yd s rows rows' h h'
    obtain ⟨n', rfl⟩ : ∃ k, n' = k + 1 := ⟨n' - 1, by omega⟩
    rw [fedBack, Py.exec_bind] at h h'
    rcases hs : (step y yd).exec s with ⟨_ | r, s1⟩
    · rw [hs] at h; cases h
    · rw [hs] at h h'
      simp only at h h'
      rw [Py.exec_bind] at h h'
      rcases hf : (fedBack step n r.1 r.2).exec s1 with ⟨_ | rest, s2⟩
      · rw [hf] at h; cases h
      · rcases hf' : (fedBack step n' r.1 r.2).exec s1 with ⟨_ | rest', s2'⟩
        · rw [hf'] at h'; cases h'
        · rw [hf] at h
          rw [hf'] at h'
          cases h
          cases h'
          rw [List.prefix_cons_inj]
          exact ih n' (by omega) r.1 r.2 s1 rest rest' (by rw [hf]) (by rw [hf'])

/-- As many results as calls. -/
theorem length_of_fedBack (step : Vec p → Vec v → Py σ (Vec p × Vec v)) : ∀ (n : ℕ) (y : Vec p) (yd : Vec v) (s : σ)
    (rows : List (Vec p × Vec v)), ((fedBack step n y yd).exec s).1 = .ok rows → rows.length = n := by
  intro n
  induction n with
  | zero =>
    intro y yd s rows h
    cases h
    rfl
  | succ n ih =>
    intro y yd s rows h
    rw [fedBack, Py.exec_bind] at h
    rcases hs : (step y yd).exec s with ⟨_ | r, s1⟩
    · rw [hs] at h; cases h
    · rw [hs] at h
      simp only at h
      rw [Py.exec_bind] at h
      rcases hf : (fedBack step n r.1 r.2).exec s1 with ⟨_ | rest, s2⟩
      · rw [hf] at h; cases h
      · rw [hf] at h
        cases h
        rw [List.length_cons, ih r.1 r.2 s1 rest (by rw [hf])]

/-- The times of `⌈run_t / dt⌉` steps. -/
theorem timeGrid_range {dt run : ℝ} (hdt : 0 < dt) :
    TimeGrid dt run ((List.range (⌈run / dt⌉₊ + 1)).map fun i : ℕ => (i : ℝ) * dt) := by
  refine ⟨by simp, by simp, ?_, ?_⟩
  · simp only [List.length_map, List.length_range, Nat.add_sub_cancel]
    rw [← div_le_iff₀ hdt]
    exact Nat.le_ceil _
  · intro i hi
    simp only [List.length_map, List.length_range] at hi
    rw [← lt_div_iff₀ hdt]
    exact Nat.lt_ceil.mp (by omega)

/-- `open_loop` makes `⌈run_t / dt⌉` steps. -/
theorem openLoopWith_steps {goalT dt : ℝ} (hdt : 0 < dt) (start : Vec p × Vec v) (runT : Option ℝ) (hr : 0 ≤ runT.getD goalT)
    (f : ℝ → ℝ → Vec p × Vec v → Except PyErr (Vec p × Vec v)) :
    openLoopWith goalT 0 dt start runT f =
      (loopRows (fun i x => f (i * dt) ((i + 1 : ℕ) * dt) x) id ⌈runT.getD goalT / dt⌉₊ start 0).map fun rows =>
        ((List.range (⌈runT.getD goalT / dt⌉₊ + 1)).map (fun i : ℕ => (i : ℝ) * dt), start.1 :: rows.map Prod.fst) := by
  have hlen : arangeLen 0 (runT.getD goalT + dt) dt = ⌈runT.getD goalT / dt⌉₊ + 1 := by
    unfold arangeLen
    rw [sub_zero, add_div, div_self hdt.ne', Nat.ceil_add_one (div_nonneg hr hdt.le)]
  have hat : arangeAt 0 dt = fun i : ℕ => (i : ℝ) * dt := by funext i; simp [arangeAt]
  unfold openLoopWith
  simp only [hdt.ne', if_false, hlen, Nat.succ_ne_zero, Nat.add_sub_cancel, hat, Bind.bind, Pure.pure, Except.pure]
  have hmap := loopRows_map
    (fun i x => f ((i : ℕ) * dt) ((i + 1 : ℕ) * dt) x) (fun i x => f ((i : ℕ) * dt) ((i + 1 : ℕ) * dt) x)
    id Prod.fst id Prod.fst
    (fun i x => by simp only [id]; cases f (i * dt) ((i + 1 : ℕ) * dt) x <;> rfl)
    (fun x => rfl) ⌈runT.getD goalT / dt⌉₊ start 0
  rw [show loopRows (fun i x => f ((i : ℕ) * dt) ((i + 1 : ℕ) * dt) x) Prod.fst ⌈runT.getD goalT / dt⌉₊ start 0 =
    loopRows (fun i x => f ((i : ℕ) * dt) ((i + 1 : ℕ) * dt) x) Prod.fst ⌈runT.getD goalT / dt⌉₊ (id start) 0 from rfl, hmap]
  cases loopRows (fun i x => f ((i : ℕ) * dt) ((i + 1 : ℕ) * dt) x) id ⌈runT.getD goalT / dt⌉₊ start 0 <;> rfl

variable {α : Type}

/-- A loop in a method: the first iteration raises. -/
theorem Py.exec_while_raise {cond : σ → Prop} {body : α → Py σ α} {x : α} {s s' : σ} {e : PyErr} (h : cond s)
    (hb : (body x).exec s = (.error e, s')) : (Py.while cond body x).exec s = (.error e, s') := by
  rw [Py.exec_while, whileLoop_step _ _ ⟨⟨x, rfl⟩, h⟩]
  simp only [hb]
  rw [whileLoop_done]
  rintro ⟨⟨x, hx⟩, -⟩
  cases hx

/-- A loop in a method, with `N` iterations that correspond to calls of `step`. -/
theorem Py.while_fedBack {ρ : Type} {cond : σ → Prop} {body : α → Py σ α} (step : Vec p → Vec v → Py ρ (Vec p × Vec v)) (N : ℕ)
    (time : ℕ → ℝ) (out : α → σ → List ℝ × List (Vec p)) (R : ℕ → α → σ → ρ → Vec p × Vec v → Prop) (RE : σ → ρ → Prop)
    (hc : ∀ i x s o z, R i x s o z → (cond s ↔ i < N))
    (hb : ∀ i x s o z, R i x s o z →
      (∃ r o' x' s', (step z.1 z.2).exec o = (.ok r, o') ∧ (body x).exec s = (.ok x', s') ∧ R (i + 1) x' s' o' r ∧
        out x' s' = ((out x s).1 ++ [time (i + 1)], (out x s).2 ++ [r.1])) ∨
      ∃ e o' s', (step z.1 z.2).exec o = (.error e, o') ∧ (body x).exec s = (.error e, s') ∧ RE s' o') :
    ∀ (k i : ℕ) (x : α) (s : σ) (o : ρ) (z : Vec p × Vec v), i + k = N → R i x s o z →
      (∃ rows o' x' s', (fedBack step k z.1 z.2).exec o = (.ok rows, o') ∧ (Py.while cond body x).exec s = (.ok x', s') ∧
        (∃ z', R N x' s' o' z') ∧
        out x' s' = ((out x s).1 ++ (List.range k).map (fun j => time (i + 1 + j)), (out x s).2 ++ rows.map Prod.fst)) ∨
      ∃ e o' s', (fedBack step k z.1 z.2).exec o = (.error e, o') ∧ (Py.while cond body x).exec s = (.error e, s') ∧
        RE s' o' := by
  have key : ∀ (k i : ℕ) (x : α) (s : σ) (o : ρ) (z : Vec p × Vec v), i + k = N → R i x s o z →
      (∃ rows o' x' s', (fedBack step k z.1 z.2).exec o = (.ok rows, o') ∧
        whileLoop (fun p : Except PyErr α × σ => (∃ x, p.1 = .ok x) ∧ cond p.2)
          (fun p => match p.1 with
            | .ok x => (body x).exec p.2
            | .error e => (.error e, p.2)) (.ok x, s) = .ok (.ok x', s') ∧
        (∃ z', R N x' s' o' z') ∧
        out x' s' = ((out x s).1 ++ (List.range k).map (fun j => time (i + 1 + j)), (out x s).2 ++ rows.map Prod.fst)) ∨
      ∃ e o' s', (fedBack step k z.1 z.2).exec o = (.error e, o') ∧
        whileLoop (fun p : Except PyErr α × σ => (∃ x, p.1 = .ok x) ∧ cond p.2)
          (fun p => match p.1 with
            | .ok x => (body x).exec p.2
            | .error e => (.error e, p.2)) (.ok x, s) = .ok (.error e, s') ∧ RE s' o' := by
    intro k
    induction k with
    | zero =>
      intro i x s o z hi hR
      left
      refine ⟨[], o, x, s, rfl, ?_, ⟨z, by rw [← hi]; exact hR⟩, by simp⟩
      apply whileLoop_done
      rintro ⟨-, h⟩
      have := (hc i x s o z hR).mp h
      omega
    | succ k ih =>
      intro i x s o z hi hR
      have hcond : cond s := (hc i x s o z hR).mpr (by omega)
      rw [whileLoop_step _ _ ⟨⟨x, rfl⟩, hcond⟩, fedBack, Py.exec_bind]
      rcases hb i x s o z hR with ⟨r, o1, x1, s1, h1, h2, h3, h4⟩ | ⟨e, o1, s1, h1, h2, h3⟩
      · simp only [h1, h2]
        rw [Py.exec_bind]
        rcases ih (i + 1) x1 s1 o1 r (by omega) h3 with ⟨rows, o', x', s', g1, g2, g3, g4⟩ | ⟨e, o', s', g1, g2, g3⟩
        · left
          refine ⟨r :: rows, o', x', s', by rw [g1]; rfl, g2, g3, ?_⟩
          rw [g4, h4, List.range_succ_eq_map]
          simp only [List.append_assoc, List.map_cons, List.map_map, List.singleton_append, Nat.add_zero, Prod.mk.injEq,
            List.append_cancel_left_eq, List.cons.injEq, true_and, and_true]
          apply List.map_congr_left
          intro j _
          simp only [Function.comp]
          congr 1
          omega
        · right
          exact ⟨e, o', s', by rw [g1], g2, g3⟩
      · right
        simp only [h1, h2]
        refine ⟨e, o1, s1, rfl, ?_, h3⟩
        apply whileLoop_done
        rintro ⟨⟨x, hx⟩, -⟩
        cases hx
  intro k i x s o z hi hR
  have hw : (Py.while cond body x).exec s =
      match whileLoop (fun p : Except PyErr α × σ => (∃ x, p.1 = .ok x) ∧ cond p.2)
        (fun p => match p.1 with
          | .ok x => (body x).exec p.2
          | .error e => (.error e, p.2)) (.ok x, s) with
      | .ok p => p
      | .error e => (.error e, s) := Py.exec_while cond body x s
  rcases key k i x s o z hi hR with ⟨rows, o', x', s', g1, g2, g3⟩ | ⟨e, o', s', g1, g2, g3⟩
  · left
    refine ⟨rows, o', x', s', g1, ?_, g3⟩
    rw [hw, g2]
  · right
    refine ⟨e, o', s', g1, ?_, g3⟩
    rw [hw, g2]

end Verif
