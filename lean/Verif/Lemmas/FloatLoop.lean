import Verif.Lemmas.FloatStep
import Verif.Props.FloatClock

/-!
# Number and lengths of the integration steps in double precision
-/

namespace Verif
open Spec

/-- Steps `(dt, time)` of the integration loop from time `x` to time `t`. -/
def LoopSteps (rnd : ℝ → ℝ) (intDt t : ℝ) : ℝ → List (ℝ × ℝ) → Prop
  | x, [] => t ≤ x
  | x, (h, x') :: L => x < t ∧ h = (if rnd (t - x) < intDt then rnd (t - x) else intDt) ∧ x' = rnd (x + h) ∧
      LoopSteps rnd intDt t x' L

variable {rnd : ℝ → ℝ}

theorem loopSteps_aux (h : IsRounding rnd) {intDt t : ℝ} (hi : IsDouble intDt) (ht : IsDouble t) (hi0 : 0 < intDt)
    (hbig : (2 : ℝ) ^ (-52 : ℤ) * t ≤ intDt) :
    ∀ (n : ℕ) (k K : ℤ) (x : ℝ), x = k * (2 : ℝ) ^ (-1074 : ℤ) → t = K * (2 : ℝ) ^ (-1074 : ℤ) → (K - k).toNat ≤ n →
      IsDouble x → 0 ≤ x → ∃ L : List (ℝ × ℝ), LoopSteps rnd intDt t x L ∧
        ∀ (σ : Type) (upd : ℝ → ℝ → σ → σ) (s : σ),
          intLoopFl rnd intDt t upd x s = .ok (L.foldl (fun s p => upd p.1 p.2 s) s) := by
  have hδ : (0 : ℝ) < (2 : ℝ) ^ (-1074 : ℤ) := by positivity
  intro n
  induction n with
  | zero =>
    intro k K x hk hK hn hx h0
    have hle : t ≤ x := by
      rw [hk, hK]
      have : K ≤ k := by omega
      exact mul_le_mul_of_nonneg_right (by exact_mod_cast this) hδ.le
    refine ⟨[], hle, fun σ upd s => ?_⟩
    unfold intLoopFl
    rw [whileLoop_done _ _ (by simpa using hle)]
    rfl
  | succ n ih =>
    intro k K x hk hK hn hx h0
    by_cases hlt : x < t
    · obtain ⟨h1, h2, h3⟩ := h.nextTime_spec hi ht hx h0 hlt hi0 hbig
      obtain ⟨l, hl⟩ := IsDouble.multiple h3
      have hkl : k < l := by
        have h1' := h1
        rw [hl, hk] at h1'
        exact_mod_cast lt_of_mul_lt_mul_right h1' hδ.le
      obtain ⟨L, hs1, hs4⟩ := ih l K _ hl hK (by omega) h3 (h0.trans h1.le)
      refine ⟨((if rnd (t - x) < intDt then rnd (t - x) else intDt), nextTime rnd intDt t x) :: L, ⟨hlt, rfl, rfl, hs1⟩, ?_⟩
      intro σ upd s
      have := hs4 σ upd (upd (if rnd (t - x) < intDt then rnd (t - x) else intDt) (nextTime rnd intDt t x) s)
      rw [List.foldl_cons, ← this]
      unfold intLoopFl
      rw [whileLoop_step _ _ (by simpa using hlt)]
      rfl
    · push Not at hlt
      refine ⟨[], hlt, fun σ upd s => ?_⟩
      unfold intLoopFl
      rw [whileLoop_done _ _ (by simpa using hlt)]
      rfl

/-- The loop is a sequence of steps. -/
theorem exists_loopSteps (h : IsRounding rnd) {intDt t lastT : ℝ} (hi : IsDouble intDt) (ht : IsDouble t) (hl : IsDouble lastT)
    (h0 : 0 ≤ lastT) (hi0 : 0 < intDt) (hbig : (2 : ℝ) ^ (-52 : ℤ) * t ≤ intDt) :
    ∃ L : List (ℝ × ℝ), LoopSteps rnd intDt t lastT L ∧ ∀ (σ : Type) (upd : ℝ → ℝ → σ → σ) (s : σ),
      intLoopFl rnd intDt t upd lastT s = .ok (L.foldl (fun s p => upd p.1 p.2 s) s) := by
  obtain ⟨k, hk⟩ := IsDouble.multiple hl
  obtain ⟨K, hK⟩ := IsDouble.multiple ht
  exact loopSteps_aux h hi ht hi0 hbig _ k K lastT hk hK (le_refl _) hl h0

/-- One step of the loop, if `int_dt` is not smaller than `2 ** -44` times the time: its length is that of the progress of the clock
up to a relative error of `1 / 256`, and it is either a full step or the clock is close to `t` afterwards. -/
theorem loop_step (h : IsRounding rnd) {intDt t x : ℝ} (hi : IsDouble intDt) (ht : IsDouble t) (hx : IsDouble x) (h0 : 0 ≤ x)
    (hxt : x < t) (hbig : (2 : ℝ) ^ (-44 : ℤ) * t ≤ intDt) {dt x' : ℝ}
    (hdt : dt = if rnd (t - x) < intDt then rnd (t - x) else intDt) (hx' : x' = rnd (x + dt)) :
    IsDouble x' ∧ x < x' ∧ 0 < dt ∧ dt ≤ intDt ∧ (1 - 1 / 256) * (min x' t - x) ≤ dt ∧
      (intDt / 2 ≤ x' - x ∨ t ≤ 2 * x' ∧ t - x' < intDt) := by
  have ht0 : 0 < t := h0.trans_lt hxt
  have hi0 : 0 < intDt := lt_of_lt_of_le (by positivity) hbig
  have e44 : (2 : ℝ) ^ (-44 : ℤ) = 512 * (2 : ℝ) ^ (-53 : ℤ) := by norm_num
  have hbig' : (2 : ℝ) ^ (-52 : ℤ) * t ≤ intDt := by
    refine le_trans (mul_le_mul_of_nonneg_right ?_ ht0.le) hbig
    norm_num
  have hnext := h.nextTime_spec hi ht hx h0 hxt hi0 hbig'
  have hsub := h.sub_error ht hx
  rw [abs_of_pos (sub_pos.2 hxt)] at hsub
  rw [e44] at hbig
  have hu : (0 : ℝ) < (2 : ℝ) ^ (-53 : ℤ) := by positivity
  have hu1 : (2 : ℝ) ^ (-53 : ℤ) ≤ 1 / 1024 := by norm_num
  have hlt : x < x' := by rw [hx', hdt]; exact hnext.1
  have hadd : ∀ {z}, IsDouble z → |rnd (x + z) - (x + z)| ≤ (2 : ℝ) ^ (-53 : ℤ) * |x + z| := fun hz => h.add_error hx hz
  have hD : IsDouble x' := by rw [hx']; exact h.isDouble _
  have hrd := h.isDouble (t - x)
  clear hnext hbig' e44
  generalize (2 : ℝ) ^ (-53 : ℤ) = u at *
  generalize rnd (t - x) = r at *
  have hsub' := abs_le.1 hsub
  have hut : u * (t - x) ≤ (t - x) / 1024 := by
    have := mul_le_mul_of_nonneg_right hu1 (show 0 ≤ t - x by linarith)
    linarith
  have hux : u * x ≤ u * t := mul_le_mul_of_nonneg_left hxt.le hu.le
  refine ⟨hD, hlt, ?_⟩
  by_cases hc : r < intDt
  · rw [if_pos hc] at hdt
    subst hdt
    have ha := hadd hrd
    rw [abs_of_nonneg (by linarith : 0 ≤ x + dt), ← hx'] at ha
    have ha' := abs_le.1 ha
    have h3 : u * dt ≤ u * (2 * (t - x)) := mul_le_mul_of_nonneg_left (by linarith) hu.le
    have h4 : u * t ≤ t / 1024 := by
      have := mul_le_mul_of_nonneg_right hu1 ht0.le
      linarith
    refine ⟨by linarith, hc.le, ?_, .inr ⟨?_, ?_⟩⟩
    · have := min_le_right x' t
      linarith
    · linarith
    · linarith
  · rw [if_neg hc] at hdt
    push Not at hc
    have ha := hadd hi
    rw [abs_of_nonneg (by linarith : 0 ≤ x + intDt), ← hdt, ← hx'] at ha
    have ha' := abs_le.1 ha
    subst hdt
    have h3 : u * dt ≤ dt / 1024 := by
      have := mul_le_mul_of_nonneg_right hu1 hi0.le
      linarith
    refine ⟨hi0, le_refl _, ?_, .inl ?_⟩
    · have := min_le_left x' t
      linarith
    · linarith

/-- Steps are positive, not too many, and cover the interval. -/
theorem LoopSteps.bounds (h : IsRounding rnd) {intDt t : ℝ} (hi : IsDouble intDt) (ht : IsDouble t) (hi0 : 0 < intDt)
    (hbig : (2 : ℝ) ^ (-44 : ℤ) * t ≤ intDt) : ∀ (L : List (ℝ × ℝ)) (x : ℝ), LoopSteps rnd intDt t x L → IsDouble x → 0 ≤ x →
      (∀ p ∈ L, 0 < p.1 ∧ p.1 ≤ intDt ∧ x < p.2) ∧ (1 - 1 / 256) * (t - x) ≤ (L.map Prod.fst).sum ∧
      (x < t → (L.length : ℝ) ≤ 2 * (t - x) / intDt + 3) ∧ (t ≤ x → L = []) ∧
      (x < t → t ≤ 2 * x → t - x < intDt → L.length = 1)
  | [], x, hL, hx, h0 => by
    have hL : t ≤ x := hL
    refine ⟨by simp, ?_, fun hc => absurd hc (not_lt.2 hL), fun _ => rfl, fun hc => absurd hc (not_lt.2 hL)⟩
    simp only [List.map_nil, List.sum_nil]
    linarith
  | (dt, x') :: L, x, hL, hx, h0 => by
    obtain ⟨hxt, hdt, hx', hL⟩ := hL
    obtain ⟨a1, a2, a3, a4, a5, a6⟩ := loop_step h hi ht hx h0 hxt hbig hdt hx'
    obtain ⟨b1, b2, b3, b4, b5⟩ := LoopSteps.bounds h hi ht hi0 hbig L x' hL a1 (h0.trans a2.le)
    refine ⟨?_, ?_, fun _ => ?_, fun hc => absurd hxt (not_lt.2 hc), fun _ h2 h3 => ?_⟩
    · intro p hp
      rcases List.mem_cons.1 hp with rfl | hp
      · exact ⟨a3, a4, a2⟩
      · exact ⟨(b1 p hp).1, (b1 p hp).2.1, a2.trans (b1 p hp).2.2⟩
    · rw [List.map_cons, List.sum_cons]
      by_cases hc : x' < t
      · rw [min_eq_left hc.le] at a5
        simp only
        linarith
      · push Not at hc
        rw [b4 hc] at *
        rw [min_eq_right hc] at a5
        simp only [List.map_nil, List.sum_nil]
        linarith
    · rw [List.length_cons]
      push_cast
      have hD : 0 < 2 * (t - x) / intDt := div_pos (by linarith) hi0
      by_cases hc : x' < t
      · rcases a6 with a6 | ⟨a6, a7⟩
        · have := b3 hc
          have e : 2 * (t - x) / intDt = 2 * (t - x') / intDt + 2 * (x' - x) / intDt := by field_simp; ring
          have : 1 ≤ 2 * (x' - x) / intDt := by
            rw [le_div_iff₀ hi0]; linarith
          linarith
        · rw [b5 hc a6 a7]
          norm_num
          linarith
      · rw [b4 (not_lt.1 hc)]
        norm_num
        linarith
    · have hd : IsDouble (t - x) := isDouble_sub ht hx (by linarith) (by linarith)
      rw [h.of_isDouble hd, if_pos h3] at hdt
      rw [hdt, add_sub_cancel, h.of_isDouble ht] at hx'
      rw [b4 hx'.ge]
      rfl

/-! ## Sequences of rounded steps -/

/-- A quantity that decays in each step up to relative errors `ε` and absolute errors `b`. -/
theorem fold_decay {σ : Type} (N : σ → ℝ) (hN : ∀ x, 0 ≤ N x) {η ε b : ℝ} (hη : 0 ≤ η) (hε : 0 ≤ ε) (hb : 0 ≤ b)
    (upd : ℝ × ℝ → σ → σ) : ∀ (L : List (ℝ × ℝ)), (∀ p ∈ L, 0 < p.1) →
      (∀ p ∈ L, ∀ x, N (upd p x) ≤ (1 - η * p.1 + ε) * N x + b) → ∀ x,
      N (L.foldl (fun s p => upd p s) x) ≤ Real.exp (-(η * (L.map Prod.fst).sum) + L.length * ε) * N x +
        L.length * Real.exp (L.length * ε) * b
  | [], _, _, x => by simp
  | p :: L, hp, hL, x => by
    have ih := fold_decay N hN hη hε hb upd L (fun q hq => hp q (by simp [hq])) (fun q hq => hL q (by simp [hq])) (upd p x)
    have h1 := hL p (by simp) x
    have hp0 := hp p (by simp)
    have hsum : 0 ≤ (L.map Prod.fst).sum :=
      List.sum_nonneg (by
        intro y hy
        obtain ⟨q, hq, rfl⟩ := List.mem_map.1 hy
        exact (hp q (by simp [hq])).le)
    rw [List.foldl_cons, List.map_cons, List.sum_cons, List.length_cons]
    refine ih.trans ?_
    set S := (L.map Prod.fst).sum
    push_cast
    set n : ℝ := (L.length : ℝ) with hn
    have hn0 : 0 ≤ n := Nat.cast_nonneg _
    have e1 : 1 - η * p.1 + ε ≤ Real.exp (-(η * p.1) + ε) := by
      have := Real.add_one_le_exp (-(η * p.1) + ε)
      linarith
    have e2 : N (upd p x) ≤ Real.exp (-(η * p.1) + ε) * N x + b :=
      h1.trans (by have := mul_le_mul_of_nonneg_right e1 (hN x); linarith)
    have e3 := mul_le_mul_of_nonneg_left e2 (Real.exp_pos (-(η * S) + n * ε)).le
    have e4 : Real.exp (-(η * S) + n * ε) * Real.exp (-(η * p.1) + ε) = Real.exp (-(η * (p.1 + S)) + (n + 1) * ε) := by
      rw [← Real.exp_add]; congr 1; ring
    have e5 : Real.exp (-(η * S) + n * ε) ≤ Real.exp ((n + 1) * ε) :=
      Real.exp_le_exp.2 (by have := mul_nonneg hη hsum; nlinarith)
    have e6 : Real.exp (n * ε) ≤ Real.exp ((n + 1) * ε) := Real.exp_le_exp.2 (by nlinarith)
    have e7 := mul_le_mul_of_nonneg_right e5 hb
    have e8 := mul_le_mul_of_nonneg_right (mul_le_mul_of_nonneg_left e6 hn0) hb
    calc _ ≤ Real.exp (-(η * S) + n * ε) * (Real.exp (-(η * p.1) + ε) * N x + b) + n * Real.exp (n * ε) * b := by linarith
      _ = Real.exp (-(η * (p.1 + S)) + (n + 1) * ε) * N x + Real.exp (-(η * S) + n * ε) * b + n * Real.exp (n * ε) * b := by
        rw [← e4]; ring
      _ ≤ _ := by linarith

end Verif
