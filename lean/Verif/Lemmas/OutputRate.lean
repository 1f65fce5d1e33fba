import Verif.Lemmas.Loops
import Verif.Lemmas.Dual
import Verif.Lemmas.Py
import Verif.Spec.OutputRate
import Verif.Spec.Execution

/-! # Composition of integration loops -/

namespace Verif
open Spec
variable {σ X : Type}

/-- The integration loop may be interrupted after any number of complete sub-steps. -/
theorem intLoop_comp (upd : ℝ → ℝ → X → X) {intDt t : ℝ} (hd : 0 < intDt) : ∀ (j : ℕ) (lastT : ℝ) (s : X),
    lastT + j * intDt ≤ t →
    intLoop intDt t upd lastT s =
      (intLoop intDt (lastT + j * intDt) upd lastT s).bind (intLoop intDt t upd (lastT + j * intDt)) := by
  intro j
  induction j with
  | zero =>
    intro lastT s _
    rw [Nat.cast_zero, zero_mul, add_zero, intLoop_done upd le_rfl]
    rfl
  | succ j ih =>
    intro lastT s h
    have hj : 0 ≤ (j : ℝ) * intDt := by positivity
    have e : lastT + ((j + 1 : ℕ) : ℝ) * intDt = lastT + intDt + j * intDt := by push_cast; ring
    rw [e] at h ⊢
    rw [intLoop_step upd (show lastT < t by linarith), intLoop_step upd (show lastT < lastT + intDt + j * intDt by linarith),
      if_neg (by linarith), if_neg (by linarith)]
    exact ih (lastT + intDt) _ h

/-- A step function that does not raise after `t0`, and that may be interrupted after multiples of `h`. -/
structure Composes (step : ℝ → ℝ → X → Except PyErr X) (F : ℝ → ℝ → X → X) (t0 h : ℝ) : Prop where
  ok : ∀ a b s, t0 ≤ a → a < b → step a b s = .ok (F a b s)
  comp : ∀ a (j : ℕ) c s, t0 ≤ a → 0 < j → a + j * h < c → F a c s = F (a + j * h) c (F a (a + j * h) s)

/-- Result of the integration loop. -/
noncomputable def intResult (intDt : ℝ) (upd : ℝ → ℝ → X → X) (a b : ℝ) (s : X) : X :=
  (subSteps intDt b a).foldl (fun s p => upd p.1 p.2 s) s

theorem Composes.of_intLoop {upd : ℝ → ℝ → X → X} {intDt t0 : ℝ} (hd : 0 < intDt)
    {step : ℝ → ℝ → X → Except PyErr X} (h : ∀ a b s, t0 ≤ a → a < b → step a b s = intLoop intDt b upd a s) :
    Composes step (intResult intDt upd) t0 intDt where
  ok a b s ha hb := by rw [h a b s ha hb, intLoop_eq upd hd]; rfl
  comp a j c s ha hj hc := by
    have := intLoop_comp upd hd j a s hc.le
    rw [intLoop_eq upd hd, intLoop_eq upd hd] at this
    simp only [Except.bind] at this
    rw [intLoop_eq upd hd] at this
    exact Except.ok.inj this

/-- The states of an execution with time step `dt`. -/
noncomputable def iterates (F : ℝ → ℝ → X → X) (t0 dt : ℝ) (x : X) : ℕ → X
  | 0 => x
  | i + 1 => F (t0 + i * dt) (t0 + (i + 1 : ℕ) * dt) (iterates F t0 dt x i)

theorem Composes.iterates_mul {step : ℝ → ℝ → X → Except PyErr X} {F : ℝ → ℝ → X → X} {t0 h : ℝ}
    (hF : Composes step F t0 h) (hh : 0 < h) {k : ℕ} (hk : 0 < k) (x : X) (i : ℕ) : ∀ l : ℕ,
    iterates F t0 (k * h) x (i + l + 1) = F (t0 + i * (k * h)) (t0 + (i + l + 1 : ℕ) * (k * h)) (iterates F t0 (k * h) x i) := by
  have hkh : 0 < (k : ℝ) * h := mul_pos (Nat.cast_pos.2 hk) hh
  intro l
  induction l with
  | zero => rfl
  | succ l ih =>
    have hi : 0 ≤ (i : ℝ) * (k * h) := by positivity
    have hl : 0 ≤ (l : ℝ) * (k * h) := by positivity
    show F _ _ (iterates F t0 (k * h) x (i + l + 1)) = _
    rw [ih, hF.comp (t0 + i * (k * h)) ((l + 1) * k) (t0 + (i + (l + 1) + 1 : ℕ) * (k * h)) _ (by linarith) (by positivity) (by
      push_cast; nlinarith)]
    have e : t0 + (i : ℝ) * (k * h) + ((l + 1) * k : ℕ) * h = t0 + (i + l + 1 : ℕ) * (k * h) := by push_cast; ring
    rw [e]
    rfl

theorem Composes.iterates_coarse {step : ℝ → ℝ → X → Except PyErr X} {F : ℝ → ℝ → X → X} {t0 h : ℝ}
    (hF : Composes step F t0 h) (hh : 0 < h) {k K : ℕ} (hk : 0 < k) (hK : 0 < K) (x : X) (i : ℕ) :
    iterates F t0 (K * (k * h)) x i = iterates F t0 (k * h) x (K * i) := by
  induction i with
  | zero => rfl
  | succ i ih =>
    obtain ⟨K, rfl⟩ : ∃ K', K = K' + 1 := ⟨K - 1, by omega⟩
    rw [show (K + 1) * (i + 1) = (K + 1) * i + K + 1 by ring, hF.iterates_mul hh hk]
    show F _ _ (iterates F t0 _ x i) = _
    rw [ih]
    congr 1 <;> · push_cast; ring

/-- Trajectories with different time steps. -/
theorem openLoop_everyKth {p v : ℕ} {step : ℝ → ℝ → Vec p × Vec v → Except PyErr (Vec p × Vec v)}
    {F : ℝ → ℝ → Vec p × Vec v → Vec p × Vec v} {startT goalT h : ℝ} (hF : Composes step F startT h) (hh : 0 < h) {k K : ℕ}
    (hk : 0 < k) (hK : 0 < K) (start : Vec p × Vec v) (runT : Option ℝ) {r : List ℝ × List (Vec p)}
    (hr : openLoopWith goalT startT (k * h) start runT step = .ok r) :
    ∃ r', openLoopWith goalT startT (K * (k * h)) start runT step = .ok r' ∧ EveryKth K r r' := by
  have hkh : 0 < (k : ℝ) * h := mul_pos (Nat.cast_pos.2 hk) hh
  have hK' : (0 : ℝ) < K := Nat.cast_pos.2 hK
  have hKkh : 0 < (K : ℝ) * (k * h) := mul_pos hK' hkh
  have tot : ∀ dt, 0 < dt → openLoopWith goalT startT dt start runT step =
      if arangeLen startT (runT.getD goalT + dt) dt = 0 then .error .indexError
      else .ok ((List.range (arangeLen startT (runT.getD goalT + dt) dt)).map (arangeAt startT dt),
        (List.range (arangeLen startT (runT.getD goalT + dt) dt)).map (fun i => (iterates F startT dt start i).1)) := by
    intro dt hdt
    refine openLoopWith_total hdt.ne' (nxt := fun i => F (startT + i * dt) (startT + (i + 1 : ℕ) * dt)) ?_ rfl (fun j => rfl)
    intro i x
    refine hF.ok _ _ x ?_ ?_
    · unfold arangeAt
      have : 0 ≤ (i : ℝ) * dt := by positivity
      linarith
    · unfold arangeAt
      push_cast
      nlinarith
  rw [tot _ hkh] at hr
  by_cases hn : arangeLen startT (runT.getD goalT + k * h) (k * h) = 0
  · rw [if_pos hn] at hr; cases hr
  rw [if_neg hn] at hr
  obtain rfl := Except.ok.inj hr
  set Rt := runT.getD goalT with hRt
  have key : ∀ i, K * i < arangeLen startT (Rt + k * h) (k * h) → i < arangeLen startT (Rt + K * (k * h)) (K * (k * h)) := by
    intro i hi
    unfold arangeLen at hi ⊢
    rw [Nat.lt_ceil] at hi ⊢
    rw [lt_div_iff₀ hkh] at hi
    rw [lt_div_iff₀ hKkh]
    push_cast at hi
    have : (K : ℝ) * (k * h) ≥ k * h := by
      have : (1 : ℝ) ≤ K := by exact_mod_cast hK
      nlinarith
    nlinarith
  have hn' : arangeLen startT (Rt + K * (k * h)) (K * (k * h)) ≠ 0 := by
    have := key 0 (by omega)
    omega
  refine ⟨_, by rw [tot _ hKkh, if_neg hn'], ?_⟩
  intro i hi
  simp only [List.length_map, List.length_range] at hi
  refine ⟨by simpa using hi, by simpa using key i hi, by simpa using key i hi, ?_, ?_⟩
  · simp only [List.getElem_map, List.getElem_range, arangeAt]
    push_cast; ring
  · simp only [List.getElem_map, List.getElem_range]
    rw [hF.iterates_coarse hh hk hK]

theorem openLoopWith_lengths {p v : ℕ} {goalT startT dt : ℝ} {start : Vec p × Vec v} {runT : Option ℝ}
    {step : ℝ → ℝ → Vec p × Vec v → Except PyErr (Vec p × Vec v)} {r : List ℝ × List (Vec p)}
    (h : openLoopWith goalT startT dt start runT step = .ok r) :
    r.1.length = arangeLen startT (runT.getD goalT + dt) dt ∧ r.2.length = arangeLen startT (runT.getD goalT + dt) dt := by
  unfold openLoopWith at h
  simp only [Bind.bind, Except.bind] at h
  by_cases h1 : dt = 0
  · rw [if_pos h1] at h; cases h
  rw [if_neg h1] at h
  simp only [Pure.pure, Except.pure] at h
  by_cases h2 : arangeLen startT (runT.getD goalT + dt) dt = 0
  · rw [if_pos h2] at h; cases h
  rw [if_neg h2] at h
  cases hl : loopRows (fun i s => step (arangeAt startT dt i) (arangeAt startT dt (i + 1)) s) Prod.fst
    (arangeLen startT (runT.getD goalT + dt) dt - 1) start 0 with
  | error e => simp [hl] at h
  | ok rows =>
    simp only [hl, Except.ok.injEq] at h
    subst h
    have := loopRows_length hl
    simp only [List.length_map, List.length_range, List.length_cons, this, true_and]
    omega

/-! ## Fed back steps -/

theorem fedBack_family {p v : ℕ} {step : Vec p → Vec v → Py σ (Vec p × Vec v)} {obj : ℝ → Option ℝ → Vec p × Vec v → σ}
    {F : ℝ → ℝ → Vec p × Vec v → Vec p × Vec v} {sf : ℝ → ℝ → Vec p × Vec v → Except PyErr (Vec p × Vec v)} {t0 h : ℝ}
    {P : Vec p × Vec v → Prop} (hF : Composes sf F t0 h) (hh : 0 < h) {k : ℕ} (hk : 0 < k) {dt : ℝ} (hdt : dt = k * h)
    (hP : ∀ a b x, P x → P (F a b x))
    (hs : ∀ t lt x, t0 ≤ t → P x →
      (step x.1 x.2).exec (obj t lt x) = (.ok (F t (t + dt) x), obj (t + dt) (some t) (F t (t + dt) x))) :
    ∀ (K : ℕ) (t : ℝ) (lt : Option ℝ) (x : Vec p × Vec v), t0 ≤ t → P x →
      ∃ rows lt', (fedBack step (K + 1) x.1 x.2).exec (obj t lt x) =
          (.ok rows, obj (t + (K + 1 : ℕ) * dt) (some lt') (F t (t + (K + 1 : ℕ) * dt) x)) ∧
        rows.getLast? = some (F t (t + (K + 1 : ℕ) * dt) x) := by
  have hkh : 0 < dt := hdt ▸ mul_pos (Nat.cast_pos.2 hk) hh
  intro K
  induction K with
  | zero =>
    intro t lt x ht hx
    refine ⟨[F t (t + dt) x], t, ?_, ?_⟩
    · simp only [fedBack, Py.exec_bind, hs t lt x ht hx, Py.exec_pure, zero_add, Nat.cast_one, one_mul]
    · simp
  | succ K ih =>
    intro t lt x ht hx
    obtain ⟨rows, lt', h1, h2⟩ := ih (t + dt) (some t) (F t (t + dt) x) (by linarith) (hP _ _ _ hx)
    have hK : 0 ≤ (K : ℝ) * dt := by positivity
    have e : t + dt + ((K + 1 : ℕ) : ℝ) * dt = t + ((K + 1 + 1 : ℕ) : ℝ) * dt := by push_cast; ring
    have ec : F (t + dt) (t + ((K + 1 + 1 : ℕ) : ℝ) * dt) (F t (t + dt) x) = F t (t + ((K + 1 + 1 : ℕ) : ℝ) * dt) x := by
      have := hF.comp t k (t + ((K + 1 + 1 : ℕ) : ℝ) * dt) x ht hk (by rw [← hdt]; push_cast; nlinarith)
      rw [← hdt] at this
      exact this.symm
    rw [e, ec] at h1 h2
    refine ⟨F t (t + dt) x :: rows, lt', ?_, ?_⟩
    · rw [fedBack]
      simp only [Py.exec_bind, hs t lt x ht hx, h1, Py.exec_pure]
    · rw [List.getLast?_cons, h2]; rfl

/-- `K` calls of `step` and one call of a `step` with a `K` times longer time step. -/
theorem long_step {p v : ℕ} {step : Vec p → Vec v → Py σ (Vec p × Vec v)} {obj obj' : ℝ → Option ℝ → Vec p × Vec v → σ}
    {F : ℝ → ℝ → Vec p × Vec v → Vec p × Vec v} {sf : ℝ → ℝ → Vec p × Vec v → Except PyErr (Vec p × Vec v)} {t0 h : ℝ}
    {P : Vec p × Vec v → Prop} (hF : Composes sf F t0 h) (hh : 0 < h) {k K : ℕ} (hk : 0 < k) (hK : 0 < K) {dt t : ℝ}
    (hdt : dt = k * h) (hP : ∀ a b x, P x → P (F a b x))
    (hs : ∀ t lt x, t0 ≤ t → P x →
      (step x.1 x.2).exec (obj t lt x) = (.ok (F t (t + dt) x), obj (t + dt) (some t) (F t (t + dt) x)))
    {s s' : σ} {y : Vec p} {yd : Vec v} {lt : Option ℝ}
    (h0 : (step y yd).exec s = (step y yd).exec (obj t lt (y, yd)))
    (h1 : (step y yd).exec s' = (.ok (F t (t + K * dt) (y, yd)), obj' (t + K * dt) (some t) (F t (t + K * dt) (y, yd))))
    (ht : t0 ≤ t) (hx : P (y, yd)) :
    ∃ rows r lt', (fedBack step K y yd).exec s = (.ok rows, obj (t + K * dt) (some lt') r) ∧
      (step y yd).exec s' = (.ok r, obj' (t + K * dt) (some t) r) ∧ rows.getLast? = some r := by
  obtain ⟨K, rfl⟩ : ∃ K', K = K' + 1 := ⟨K - 1, by omega⟩
  obtain ⟨rows, lt', e1, e2⟩ := fedBack_family hF hh hk hdt hP hs K t lt (y, yd) ht hx
  refine ⟨rows, _, lt', ?_, h1, e2⟩
  have : (fedBack step (K + 1) y yd).exec s = (fedBack step (K + 1) y yd).exec (obj t lt (y, yd)) := by
    simp only [fedBack, Py.exec_bind, h0]
  rw [this]
  exact e1

/-! ## Loops that advance the time themselves -/

theorem Py.while_seq {α : Type} {cond : σ → Prop} {body : α → Py σ α} {xs : ℕ → α} {os : ℕ → σ} {N : ℕ}
    (hb : ∀ i, (body (xs i)).exec (os i) = (.ok (xs (i + 1)), os (i + 1))) (hc : ∀ i, cond (os i) ↔ i < N) :
    (Py.while cond body (xs 0)).exec (os 0) = (.ok (xs N), os N) := by
  have key : ∀ j i, i + j = N → (Py.while cond body (xs i)).exec (os i) = (.ok (xs N), os N) := by
    intro j
    induction j with
    | zero =>
      rintro i rfl
      exact Py.exec_while_done (fun h => absurd ((hc _).1 h) (lt_irrefl _))
    | succ j ih =>
      intro i hi
      exact Py.exec_while_step ((hc i).2 (by omega)) (hb i) (ih (i + 1) (by omega))
  exact key N 0 (by omega)

/-- Number of iterations of such a loop. -/
noncomputable def loopCount (t0 R dt : ℝ) : ℕ := ⌈(R - t0) / dt⌉₊

theorem loopCount_lt {t0 R dt : ℝ} (hdt : 0 < dt) {i : ℕ} : t0 + i * dt < R ↔ i < loopCount t0 R dt := by
  unfold loopCount
  rw [Nat.lt_ceil, lt_div_iff₀ hdt]
  constructor <;> intro h <;> linarith

/-- Trajectory collected by such a loop. -/
noncomputable def sampled {p v : ℕ} (F : ℝ → ℝ → Vec p × Vec v → Vec p × Vec v) (t0 dt : ℝ) (x : Vec p × Vec v) (N : ℕ) :
    List ℝ × List (Vec p) :=
  ((List.range (N + 1)).map fun i : ℕ => t0 + i * dt, (List.range (N + 1)).map fun i => (iterates F t0 dt x i).1)

theorem sampled_succ {p v : ℕ} (F : ℝ → ℝ → Vec p × Vec v → Vec p × Vec v) (t0 dt : ℝ) (x : Vec p × Vec v) (N : ℕ) :
    sampled F t0 dt x (N + 1) = ((sampled F t0 dt x N).1 ++ [t0 + (N + 1 : ℕ) * dt],
      (sampled F t0 dt x N).2 ++ [(iterates F t0 dt x (N + 1)).1]) := by
  unfold sampled
  rw [List.range_succ]
  simp only [List.map_append, List.map_cons, List.map_nil]

theorem sampled_everyKth {p v : ℕ} {step : ℝ → ℝ → Vec p × Vec v → Except PyErr (Vec p × Vec v)}
    {F : ℝ → ℝ → Vec p × Vec v → Vec p × Vec v} {t0 h : ℝ} (hF : Composes step F t0 h) (hh : 0 < h) {k K : ℕ} (hk : 0 < k)
    (hK : 0 < K) (x : Vec p × Vec v) (R : ℝ) :
    EveryKth K (sampled F t0 (k * h) x (loopCount t0 R (k * h)))
      (sampled F t0 (K * (k * h)) x (loopCount t0 R (K * (k * h)))) := by
  have hkh : 0 < (k : ℝ) * h := mul_pos (Nat.cast_pos.2 hk) hh
  have hKkh : 0 < (K : ℝ) * (k * h) := mul_pos (Nat.cast_pos.2 hK) hkh
  intro i hi
  simp only [sampled, List.length_map, List.length_range] at hi
  have key : i ≤ loopCount t0 R (K * (k * h)) := by
    by_contra hc
    have h1 : loopCount t0 R (K * (k * h)) ≤ i - 1 := by omega
    unfold loopCount at h1 hi
    rw [Nat.ceil_le, div_le_iff₀ hKkh] at h1
    have h2 : ⌈(R - t0) / (k * h)⌉₊ ≤ K * (i - 1) := by
      rw [Nat.ceil_le, div_le_iff₀ hkh]
      push_cast
      linarith
    have h3 : K * (i - 1) < K * i := Nat.mul_lt_mul_of_pos_left (by omega) hK
    omega
  refine ⟨by simpa [sampled] using hi, by simp [sampled]; omega, by simp [sampled]; omega, ?_, ?_⟩
  · simp only [sampled, List.getElem_map, List.getElem_range]
    push_cast; ring
  · simp only [sampled, List.getElem_map, List.getElem_range]
    rw [hF.iterates_coarse hh hk hK]

end Verif
