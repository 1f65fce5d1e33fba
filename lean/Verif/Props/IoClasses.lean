import Verif.Props.Io
import Verif.Model.IoClasses
import Verif.Props.DmpClass
import Verif.Props.Cartesian

/-! # C52 for the classes of the library -/

namespace Verif

open Spec

variable {d m : ℕ}

/-! ## Constructor arguments -/

theorem kwArrayLike_some {kw : Attrs} {k : String} (hd : 0 < d) (x : Vec d) (y : ℝ)
    (h : kw.get k = some (jsonForm (pyVec x))) : kwArrayLike kw k y = .ok (.array1 (List.ofFn x)) := by
  unfold kwArrayLike
  have := npArray_toList [d] (by simpa using hd) x
  simp only [h, jsonForm, pyVec, this]
  rfl

theorem ensure1dArray_ofFn (x : Vec d) : ensure1dArray (.array1 (List.ofFn x)) d = .ok x := by
  unfold ensure1dArray
  by_cases h : d = 1
  · subst h
    simp [checkLength, List.ofFn_succ]
    funext i
    fin_cases i; rfl
  · have hl : (List.ofFn x).length = d := List.length_ofFn ..
    have hx : checkLength d (List.ofFn x) = .ok x := by
      unfold checkLength
      simp
    generalize List.ofFn x = l at hl hx
    match l with
    | [] => exact hx
    | [_] => simp at hl; omega
    | _ :: _ :: _ => exact hx

/-- `DMP(...)` with gains as arrays. -/
theorem DMP.create_arrays (hm : 2 ≤ m) {τ : ℝ} (hτ : 0 < τ) (dt intDt pGain : ℝ) (smooth : Bool) (α β : Vec d) :
    ∃ s, DMP.create d m τ dt intDt pGain smooth (.array1 (List.ofFn α)) (.array1 (List.ofFn β)) = .ok s ∧
      s.intDt = intDt ∧ s.pGain = pGain ∧ s.smooth = smooth ∧ s.alphaY = α ∧ s.betaY = β := by
  obtain ⟨ft, hft⟩ := (DMP.initForcingTerm_isOk_iff (d := d) (m := m) τ).2 ⟨hm, hτ⟩
  unfold DMP.create
  rw [hft, ensure1dArray_ofFn, ensure1dArray_ofFn]
  exact ⟨_, rfl, rfl, rfl, rfl, rfl, rfl⟩

theorem CartesianDMP.create_arrays (hm : 2 ≤ m) {τ : ℝ} (hτ : 0 < τ) (dt intDt : ℝ) (smooth : Bool) (α β : Vec 6) :
    ∃ s, CartesianDMP.create m τ dt intDt smooth (.array1 (List.ofFn α)) (.array1 (List.ofFn β)) = .ok s ∧
      s.intDt = intDt ∧ s.smooth = smooth ∧ s.alphaY = α ∧ s.betaY = β := by
  obtain ⟨s, hs, -⟩ := CartesianDMP.create_ok m hm hτ dt intDt smooth 1 1
  unfold CartesianDMP.create at hs ⊢
  cases h : CartesianDMP.initForcingTerms m τ with
  | error e => rw [h] at hs; cases hs
  | ok p =>
    rw [show ensure1dArray (.array1 (List.ofFn α)) 6 = .ok α from ensure1dArray_ofFn α,
      show ensure1dArray (.array1 (List.ofFn β)) 6 = .ok β from ensure1dArray_ofFn β]
    exact ⟨_, rfl, rfl, rfl, rfl, rfl⟩

theorem DMP.Reachable.two_le {s : DMP d m} (h : s.Reachable) : 2 ≤ m := by
  obtain ⟨ft, h1, -⟩ := h.valid
  exact ((DMP.initForcingTerm_isOk_iff _).1 ⟨ft, h1⟩).1

theorem ForcingTerm.storable (hd : 0 < d) (hm : 0 < m) (ft : ForcingTerm d m) : Storable ft.toPy := by
  unfold ForcingTerm.toPy ForcingTerm.attrs
  refine ⟨?_, ?_, ?_, ?_⟩
  · simp [Attrs.ofList, StorableAttrs, Storable, pyMat, pyVec, hd, hm]
  · simp [Attrs.ofList, Attrs.keys]
  · simp [Attrs.ofList, Attrs.keys]
  · simp [Attrs.ofList, Attrs.keys]

theorem ForcingTerm.compatible (ft ft' : ForcingTerm d m) : Compatible ft.toPy (some ft'.toPy) := by
  refine ⟨_, rfl, ?_⟩
  simp [ForcingTerm.attrs, Attrs.ofList, CompatibleAttrs, Compatible, pyMat, pyVec, Attrs.get]
  exact ⟨⟨_, _, rfl⟩, ⟨_, _, rfl⟩, ⟨_, _, rfl⟩⟩

theorem pyOpt_storable (x : Option ℝ) : Storable (pyOpt x) := by
  cases x <;> simp [pyOpt, Storable]

theorem pyOpt_compatible (x : Option ℝ) (o : Option PyVal) : Compatible (pyOpt x) o := by
  cases x <;> simp [pyOpt, Compatible]

theorem DMP.storable (hd : 0 < d) (hm : 0 < m) (s : DMP d m) : Storable s.toPy := by
  unfold DMP.toPy DMP.attrs
  refine ⟨?_, ?_, ?_, ?_⟩
  · simp [Attrs.ofList, Movement.attrs, StorableAttrs, Storable, pyVec, hd, pyOpt_storable, ForcingTerm.storable hd hm]
  · simp [Attrs.ofList, Movement.attrs, Attrs.keys]
  · simp [Attrs.ofList, Movement.attrs, Attrs.keys]
  · simp [Attrs.ofList, Movement.attrs, Attrs.keys]

theorem DMP.attrs_keys (s : DMP d m) : s.attrs.keys = ["n_dims", "n_vel_dims", "t", "last_t", "start_y", "start_yd",
    "start_ydd", "goal_y", "goal_yd", "goal_ydd", "current_y", "current_yd", "initialized", "_execution_time", "dt_",
    "n_weights_per_dim", "int_dt", "p_gain", "smooth_scaling", "forcing_term", "alpha_y", "beta_y"] := rfl

theorem DMP.attrs_args (s : DMP d m) : s.attrs.get "n_dims" = some (.int d) ∧ s.attrs.get "execution_time" = none ∧
    s.attrs.get "dt" = none ∧ s.attrs.get "n_weights_per_dim" = some (.int m) ∧
    s.attrs.get "int_dt" = some (.float s.intDt) ∧ s.attrs.get "p_gain" = some (.float s.pGain) ∧
    s.attrs.get "smooth_scaling" = some (.bool s.smooth) ∧ s.attrs.get "alpha_y" = some (pyVec s.alphaY) ∧
    s.attrs.get "beta_y" = some (pyVec s.betaY) := by
  simp [DMP.attrs, Attrs.ofList, Movement.attrs, Attrs.get]

theorem DMP.forall_args {P : String → Prop} : (∀ k ∈ DMP.pyClass.args, P k) ↔ P "n_dims" ∧ P "execution_time" ∧ P "dt" ∧
    P "n_weights_per_dim" ∧ P "int_dt" ∧ P "p_gain" ∧ P "smooth_scaling" ∧ P "alpha_y" ∧ P "beta_y" := by
  simp [DMP.pyClass]

theorem DMP.construct_saved (hd : 0 < d) {s f : DMP d m}
    (hf : DMP.create d m 1 (1 / 100) s.intDt s.pGain s.smooth (.array1 (List.ofFn s.alphaY))
      (.array1 (List.ofFn s.betaY)) = .ok f) (kw : Attrs)
    (hkw : ∀ k, kw.get k = if k ∈ DMP.pyClass.args then (s.attrs.get k).map jsonForm else none) :
    DMP.pyClass.construct kw = .ok f.attrs := by
  have hkw' : ∀ k ∈ DMP.pyClass.args, kw.get k = (s.attrs.get k).map jsonForm := by
    intro k hk
    rw [hkw k, if_pos hk]
  rw [DMP.forall_args] at hkw'
  obtain ⟨a1, a2, a3, a4, a5, a6, a7, a8, a9⟩ := s.attrs_args
  rw [a1, a2, a3, a4, a5, a6, a7, a8, a9] at hkw'
  obtain ⟨g1, g2, g3, g4, g5, g6, g7, g8, g9⟩ := hkw'
  unfold DMP.pyClass
  simp only [kwArrayLike_some hd _ _ g8, kwArrayLike_some hd _ _ g9, kwInt, kwFloat, kwBool, g1, g2, g3, g4, g5,
    g6, g7, jsonForm, bind, Except.bind, Int.toNat_natCast, Option.map_some, Option.map_none]
  rw [hf]
  rfl

theorem pyVec_compatible {n k : ℕ} (x : Vec n) (y : Vec k) : Compatible (pyVec x) (some (pyVec y)) := ⟨_, _, rfl⟩

theorem DMP.compatible (s f : DMP d m) : CompatibleAttrs (without DMP.pyClass.args s.attrs) f.attrs := by
  simp [DMP.pyClass, DMP.attrs, Attrs.ofList, Movement.attrs, Attrs.get, without, CompatibleAttrs, Compatible,
    pyVec_compatible, pyOpt_compatible, ForcingTerm.compatible]

/-- **C52.** A `DMP` with at least one dimension, after any history of calls: `read_json(write_json(dmp))` succeeds and
returns a `DMP` object with all attributes of the original (state, configuration, execution time, gains, weights and all
other parameters of the forcing term), and no further attributes. -/
theorem C52_dmp {s : DMP d m} (hs : s.Reachable) (hd : 0 < d) :
    ∃ a', jsonSaveAndLoad library s.toPy = .ok (.obj "movement_primitives.dmp._dmp" "DMP" a') ∧
      RestoredAttrs s.attrs a' ∧ ∀ k, s.attrs.get k = none → a'.get k = none := by
  have hm := hs.two_le
  obtain ⟨f, hf, h1, h2, h3, h4, h5⟩ := DMP.create_arrays (d := d) hm one_pos (1 / 100) s.intDt s.pGain s.smooth
    s.alphaY s.betaY
  obtain ⟨a1, a2, a3, a4, a5, a6, a7, a8, a9⟩ := s.attrs_args
  obtain ⟨b1, b2, b3, b4, b5, b6, b7, b8, b9⟩ := f.attrs_args
  have hl : library "movement_primitives.dmp._dmp" = some fun c => if c = "DMP" then some DMP.pyClass else none := by
    simp [library]
  have e1 : ∀ k ∈ DMP.pyClass.args, ∀ v, s.attrs.get k = some v → ¬ IsObj v := by
    rw [DMP.forall_args, a1, a2, a3, a4, a5, a6, a7, a8, a9]
    simp [IsObj, pyVec]
  have e2 : ∀ k ∈ DMP.pyClass.args, ∀ v, s.attrs.get k = some v → ∃ v', f.attrs.get k = some v' ∧ Restored v v' := by
    rw [DMP.forall_args, a1, a2, a3, a4, a5, a6, a7, a8, a9, b1, b2, b3, b4, b5, b6, b7, b8, b9]
    simp [Restored, pyVec, h1, h2, h3, h4, h5]
  obtain ⟨a', ha, hr, hn⟩ := C52_json_round_trip library (DMP.storable hd (by omega) s) hl (if_pos rfl) e1
    (fun kw hkw => DMP.construct_saved hd hf kw hkw) e2 (DMP.compatible s f)
  refine ⟨a', ha, hr, fun k hk => ?_⟩
  rw [hn k hk]
  rw [Attrs.get_none_iff] at hk ⊢
  rwa [DMP.attrs_keys] at hk ⊢

theorem restored_pyVec {n : ℕ} (x : Vec n) (v : PyVal) : Restored (pyVec x) v ↔ v = pyVec x := by
  simp [pyVec, Restored]

theorem restored_pyMat {n k : ℕ} (x : Fin n → Fin k → ℝ) (v : PyVal) : Restored (pyMat x) v ↔ v = pyMat x := by
  simp [pyMat, Restored]

theorem pyVec_inj {n : ℕ} (x y : Vec n) : pyVec x = pyVec y ↔ x = y :=
  ⟨fun h => by unfold pyVec at h; injection h with _ h, fun h => by rw [h]⟩

theorem pyMat_inj {n k : ℕ} (x y : Fin n → Fin k → ℝ) : pyMat x = pyMat y ↔ x = y :=
  ⟨fun h => by unfold pyMat at h; injection h with _ h, fun h => by rw [h]⟩

/-- What is restored determines the DMP: two DMPs that are both restored by the same attributes are equal. So every
method computes the same on the loaded object. -/
theorem C52_dmp_determined {s s' : DMP d m} {a' : Attrs} (h : RestoredAttrs s.attrs a') (h' : RestoredAttrs s'.attrs a') :
    s = s' := by
  obtain ⟨⟨t, lt, y0, y0d, y0dd, g, gd, gdd, y, yd⟩, τ, dt, idt, pg, sm, ⟨f1, f2, f3, f4, f5, f6, f7, f8, f9⟩, al, be, ini⟩ := s
  obtain ⟨⟨t', lt', y0', y0d', y0dd', g', gd', gdd', y', yd'⟩, τ', dt', idt', pg', sm',
    ⟨f1', f2', f3', f4', f5', f6', f7', f8', f9'⟩, al', be', ini'⟩ := s'
  have ho : ∀ x v, Restored (pyOpt x) v ↔ v = pyOpt x := by
    intro x v
    cases x <;> simp [pyOpt, Restored]
  have hi : ∀ x x', pyOpt x = pyOpt x' ↔ x = x' := by
    intro x x'
    cases x <;> cases x' <;> simp [pyOpt]
  simp [DMP.attrs, Movement.attrs, Attrs.ofList, RestoredAttrs, Restored, restored_pyVec, restored_pyMat,
    ho, ForcingTerm.toPy,
    ForcingTerm.attrs] at h h'
  obtain ⟨h1, h2, h3, h4, h5, h6, h7, h8, h9, h10, h11, h12, h13, h14, h15, h16,
    h17, h18, h19, ⟨b, h20, k1, k2, k3, k4, k5, k6, k7, k8, k9, k10⟩, h21, h22⟩ := h
  simp [h1, h2, h3, h4, h5, h6, h7, h8, h9, h10, h11, h12, h13, h14, h15, h16, h17, h18, h19, h20, h21, h22, hi,
    pyVec_inj] at h'
  simp [k1, k2, k3, k4, k5, k6, k7, k8, k9, k10, pyVec_inj, pyMat_inj] at h'
  simp [h']

/-! ## Cartesian DMPs -/

theorem CartesianDMP.attrs_keys (s : CartesianDMP m) (b : Bool) : (s.attrs b).keys = ["n_dims", "n_vel_dims", "t",
    "last_t", "start_y", "start_yd", "start_ydd", "goal_y", "goal_yd", "goal_ydd", "current_y", "current_yd",
    "initialized", "_execution_time", "dt_", "n_weights_per_dim", "int_dt", "smooth_scaling", "forcing_term_pos",
    "forcing_term_rot", "alpha_y", "beta_y"] := rfl

theorem CartesianDMP.attrs_args (s : CartesianDMP m) (b : Bool) : (s.attrs b).get "execution_time" = none ∧
    (s.attrs b).get "dt" = none ∧ (s.attrs b).get "n_weights_per_dim" = some (.int m) ∧
    (s.attrs b).get "int_dt" = some (.float s.intDt) ∧ (s.attrs b).get "smooth_scaling" = some (.bool s.smooth) ∧
    (s.attrs b).get "alpha_y" = some (pyVec s.alphaY) ∧ (s.attrs b).get "beta_y" = some (pyVec s.betaY) := by
  simp [CartesianDMP.attrs, Attrs.ofList, Movement.attrs, Attrs.get]

theorem CartesianDMP.forall_args {P : String → Prop} : (∀ k ∈ CartesianDMP.pyClass.args, P k) ↔ P "execution_time" ∧
    P "dt" ∧ P "n_weights_per_dim" ∧ P "int_dt" ∧ P "smooth_scaling" ∧ P "alpha_y" ∧ P "beta_y" := by
  simp [CartesianDMP.pyClass]

theorem CartesianDMP.construct_saved {s f : CartesianDMP m} {b : Bool}
    (hf : CartesianDMP.create m 1 (1 / 100) s.intDt s.smooth (.array1 (List.ofFn s.alphaY))
      (.array1 (List.ofFn s.betaY)) = .ok f) (kw : Attrs)
    (hkw : ∀ k, kw.get k = if k ∈ CartesianDMP.pyClass.args then ((s.attrs b).get k).map jsonForm else none) :
    CartesianDMP.pyClass.construct kw = .ok (f.attrs false) := by
  have hkw' : ∀ k ∈ CartesianDMP.pyClass.args, kw.get k = ((s.attrs b).get k).map jsonForm := by
    intro k hk
    rw [hkw k, if_pos hk]
  rw [CartesianDMP.forall_args] at hkw'
  obtain ⟨a1, a2, a3, a4, a5, a6, a7⟩ := s.attrs_args b
  rw [a1, a2, a3, a4, a5, a6, a7] at hkw'
  obtain ⟨g1, g2, g3, g4, g5, g6, g7⟩ := hkw'
  unfold CartesianDMP.pyClass
  simp only [kwArrayLike_some (by norm_num : 0 < 3 + 3) _ _ g6, kwArrayLike_some (by norm_num : 0 < 3 + 3) _ _ g7,
    kwInt, kwFloat, kwBool, g1, g2, g3, g4, g5, jsonForm, bind, Except.bind, Int.toNat_natCast, Option.map_some,
    Option.map_none]
  rw [hf]
  rfl

theorem CartesianDMP.compatible (s f : CartesianDMP m) (b c : Bool) :
    CompatibleAttrs (without CartesianDMP.pyClass.args (s.attrs b)) (f.attrs c) := by
  simp [CartesianDMP.pyClass, CartesianDMP.attrs, Attrs.ofList, Movement.attrs, Attrs.get, without, CompatibleAttrs,
    Compatible, pyVec_compatible, pyOpt_compatible, ForcingTerm.compatible]

theorem CartesianDMP.storable (hm : 0 < m) (s : CartesianDMP m) (b : Bool) : Storable (s.toPy b) := by
  unfold CartesianDMP.toPy CartesianDMP.attrs
  refine ⟨?_, ?_, ?_, ?_⟩
  · simp [Attrs.ofList, Movement.attrs, StorableAttrs, Storable, pyVec, pyOpt_storable, ForcingTerm.storable _ hm]
  · simp [Attrs.ofList, Movement.attrs, Attrs.keys]
  · simp [Attrs.ofList, Movement.attrs, Attrs.keys]
  · simp [Attrs.ofList, Movement.attrs, Attrs.keys]

/-- **C52.** What is restored determines the Cartesian DMP: two Cartesian DMPs that are both restored by the same attributes
are equal. -/
theorem C52_cartesian_dmp_determined {s s' : CartesianDMP m} {b b' : Bool} {a' : Attrs}
    (h : RestoredAttrs (s.attrs b) a') (h' : RestoredAttrs (s'.attrs b') a') : s = s' ∧ b = b' := by
  obtain ⟨⟨t, lt, y0, y0d, y0dd, g, gd, gdd, y, yd⟩, τ, dt, idt, sm, ⟨f1, f2, f3, f4, f5, f6, f7, f8, f9⟩,
    ⟨e1, e2, e3, e4, e5, e6, e7, e8, e9⟩, al, be⟩ := s
  obtain ⟨⟨t', lt', y0', y0d', y0dd', g', gd', gdd', y', yd'⟩, τ', dt', idt', sm',
    ⟨f1', f2', f3', f4', f5', f6', f7', f8', f9'⟩, ⟨e1', e2', e3', e4', e5', e6', e7', e8', e9'⟩, al', be'⟩ := s'
  have ho : ∀ x v, Restored (pyOpt x) v ↔ v = pyOpt x := by
    intro x v
    cases x <;> simp [pyOpt, Restored]
  have hi : ∀ x x', pyOpt x = pyOpt x' ↔ x = x' := by
    intro x x'
    cases x <;> cases x' <;> simp [pyOpt]
  simp [CartesianDMP.attrs, Movement.attrs, Attrs.ofList, RestoredAttrs, Restored, restored_pyVec, restored_pyMat,
    ho, ForcingTerm.toPy,
    ForcingTerm.attrs] at h h'
  obtain ⟨h1, h2, h3, h4, h5, h6, h7, h8, h9, h10, h11, h12, h13, h14, h15, h16,
    h17, h18, ⟨b, h20, k1, k2, k3, k4, k5, k6, k7, k8, k9, k10⟩, ⟨c, h23, l1, l2, l3, l4, l5, l6, l7, l8, l9, l10⟩,
    h21, h22⟩ := h
  simp [h1, h2, h3, h4, h5, h6, h7, h8, h9, h10, h11, h12, h13, h14, h15, h16, h17, h18, h20, h21, h22, h23, hi,
    pyVec_inj] at h'
  simp [k1, k2, k3, k4, k5, k6, k7, k8, k9, k10, l1, l2, l3, l4, l5, l6, l7, l8, l9, l10, pyVec_inj, pyMat_inj] at h'
  simp [h']

/-- **C52.** A `CartesianDMP` with at least two weights per dimension (all that can be constructed), in any state. -/
theorem C52_cartesian_dmp (hm : 2 ≤ m) (s : CartesianDMP m) (b : Bool) :
    ∃ a', jsonSaveAndLoad library (s.toPy b) =
        .ok (.obj "movement_primitives.dmp._cartesian_dmp" "CartesianDMP" a') ∧
      RestoredAttrs (s.attrs b) a' ∧ ∀ k, (s.attrs b).get k = none → a'.get k = none := by
  obtain ⟨f, hf, h1, h2, h3, h4⟩ := CartesianDMP.create_arrays hm one_pos (1 / 100) s.intDt s.smooth s.alphaY s.betaY
  obtain ⟨a1, a2, a3, a4, a5, a6, a7⟩ := s.attrs_args b
  obtain ⟨b1, b2, b3, b4, b5, b6, b7⟩ := f.attrs_args false
  have hl : library "movement_primitives.dmp._cartesian_dmp" =
      some fun c => if c = "CartesianDMP" then some CartesianDMP.pyClass else none := by
    simp [library]
  have e1 : ∀ k ∈ CartesianDMP.pyClass.args, ∀ v, (s.attrs b).get k = some v → ¬ IsObj v := by
    rw [CartesianDMP.forall_args, a1, a2, a3, a4, a5, a6, a7]
    simp [IsObj, pyVec]
  have e2 : ∀ k ∈ CartesianDMP.pyClass.args, ∀ v, (s.attrs b).get k = some v →
      ∃ v', (f.attrs false).get k = some v' ∧ Restored v v' := by
    rw [CartesianDMP.forall_args, a1, a2, a3, a4, a5, a6, a7, b1, b2, b3, b4, b5, b6, b7]
    simp [Restored, pyVec, h1, h2, h3, h4]
  obtain ⟨a', ha, hr, hn⟩ := C52_json_round_trip library (CartesianDMP.storable (by omega) s b) hl (if_pos rfl) e1
    (fun kw hkw => CartesianDMP.construct_saved hf kw hkw) e2 (CartesianDMP.compatible s f b false)
  refine ⟨a', ha, hr, fun k hk => ?_⟩
  rw [hn k hk]
  rw [Attrs.get_none_iff] at hk ⊢
  rwa [CartesianDMP.attrs_keys] at hk ⊢

/-! ## ProMPs -/

variable {w : ℕ}

theorem ProMP.storable (hd : 0 < d) (hw : 0 < w) (p : ProMP d w) : Storable p.toPy := by
  have : 0 < d * w := Nat.mul_pos hd hw
  obtain ⟨wm, wc, ce, v⟩ := p
  cases v <;> unfold ProMP.toPy ProMP.attrs <;> refine ⟨?_, ?_, ?_, ?_⟩ <;>
    simp [Attrs.ofList, StorableAttrs, Storable, pyVec, pyMat, Attrs.keys, this, hw]

theorem ProMP.attrs_args (p : ProMP d w) : p.attrs.get "n_dims" = some (.int d) ∧
    p.attrs.get "n_weights_per_dim" = some (.int w) := by
  simp [ProMP.attrs, Attrs.ofList, Attrs.get]

theorem ProMP.forall_args {P : String → Prop} : (∀ k ∈ ProMP.pyClass.args, P k) ↔ P "n_dims" ∧
    P "n_weights_per_dim" := by
  simp [ProMP.pyClass]

theorem ProMP.construct_saved {p : ProMP d w} (kw : Attrs)
    (hkw : ∀ k, kw.get k = if k ∈ ProMP.pyClass.args then (p.attrs.get k).map jsonForm else none) :
    ProMP.pyClass.construct kw = .ok (ProMP.init d w).attrs := by
  have hkw' : ∀ k ∈ ProMP.pyClass.args, kw.get k = (p.attrs.get k).map jsonForm := by
    intro k hk
    rw [hkw k, if_pos hk]
  rw [ProMP.forall_args] at hkw'
  obtain ⟨a1, a2⟩ := p.attrs_args
  rw [a1, a2] at hkw'
  obtain ⟨g1, g2⟩ := hkw'
  unfold ProMP.pyClass
  simp only [kwInt, g1, g2, jsonForm, bind, Except.bind, Int.toNat_natCast, Option.map_some]
  rfl

theorem pyMat_compatible {n k n' k' : ℕ} (x : Fin n → Fin k → ℝ) (y : Fin n' → Fin k' → ℝ) :
    Compatible (pyMat x) (some (pyMat y)) := ⟨_, _, rfl⟩

theorem ProMP.compatible (p f : ProMP d w) : CompatibleAttrs (without ProMP.pyClass.args p.attrs) f.attrs := by
  obtain ⟨wm, wc, ce, v⟩ := p
  cases v <;> simp [ProMP.pyClass, ProMP.attrs, Attrs.ofList, Attrs.get, without, CompatibleAttrs, Compatible,
    pyVec_compatible, pyMat_compatible]

/-- **C52.** A `ProMP` with at least one dimension and one weight, with any weight distribution, learned or not. -/
theorem C52_promp (hd : 0 < d) (hw : 0 < w) (p : ProMP d w) :
    ∃ a', jsonSaveAndLoad library p.toPy = .ok (.obj "movement_primitives.promp" "ProMP" a') ∧
      RestoredAttrs p.attrs a' ∧ ∀ k, p.attrs.get k = none → a'.get k = none := by
  obtain ⟨a1, a2⟩ := p.attrs_args
  obtain ⟨b1, b2⟩ := (ProMP.init d w).attrs_args
  have hl : library "movement_primitives.promp" = some fun c => if c = "ProMP" then some ProMP.pyClass else none := by
    simp [library]
  have e1 : ∀ k ∈ ProMP.pyClass.args, ∀ v, p.attrs.get k = some v → ¬ IsObj v := by
    rw [ProMP.forall_args, a1, a2]
    simp [IsObj]
  have e2 : ∀ k ∈ ProMP.pyClass.args, ∀ v, p.attrs.get k = some v →
      ∃ v', (ProMP.init d w).attrs.get k = some v' ∧ Restored v v' := by
    rw [ProMP.forall_args, a1, a2, b1, b2]
    simp [Restored]
  obtain ⟨a', ha, hr, hn⟩ := C52_json_round_trip library (ProMP.storable hd hw p) hl (if_pos rfl) e1
    (fun kw hkw => ProMP.construct_saved kw hkw) e2 (ProMP.compatible p _)
  refine ⟨a', ha, hr, fun k hk => ?_⟩
  rw [hn k hk]
  rw [Attrs.get_none_iff] at hk ⊢
  intro h
  apply hk
  have h1 : (ProMP.init d w).attrs.keys = ["n_dims", "n_weights_per_dim", "n_weights", "weight_mean", "weight_cov",
      "centers"] := rfl
  rw [h1] at h
  unfold ProMP.attrs
  obtain ⟨wm, wc, ce, v⟩ := p
  cases v <;> simp [Attrs.ofList, Attrs.keys] at h ⊢ <;> tauto

/-- **C52.** What is restored determines the ProMP. -/
theorem C52_promp_determined {p p' : ProMP d w} {a' : Attrs} (h : RestoredAttrs p.attrs a')
    (hn : ∀ k, p.attrs.get k = none → a'.get k = none) (h' : RestoredAttrs p'.attrs a')
    (hn' : ∀ k, p'.attrs.get k = none → a'.get k = none) : p = p' := by
  obtain ⟨wm, wc, ce, v⟩ := p
  obtain ⟨wm', wc', ce', v'⟩ := p'
  have e1 := hn "variance"
  have e2 := hn' "variance"
  cases v <;> cases v' <;>
    simp [ProMP.attrs, Attrs.ofList, RestoredAttrs, Restored, restored_pyVec, restored_pyMat, Attrs.get] at h h' e1 e2 ⊢
  · obtain ⟨-, -, -, a1, a2, a3⟩ := h
    simp only [a1, a2, a3, Option.some.injEq, pyVec_inj, pyMat_inj] at h'
    exact ⟨h'.2.2.2.1, h'.2.2.2.2.1, h'.2.2.2.2.2⟩
  · obtain ⟨-, -, -, -, -, -, v, hv, -⟩ := h'
    rw [e1] at hv
    cases hv
  · obtain ⟨-, -, -, -, -, -, v, hv, -⟩ := h
    rw [e2] at hv
    cases hv
  · obtain ⟨-, -, -, a1, a2, a3, v, hv, hv'⟩ := h
    simp only [a1, a2, a3, hv, Option.some.injEq, pyVec_inj, pyMat_inj] at h'
    refine ⟨h'.2.2.2.1, h'.2.2.2.2.1, h'.2.2.2.2.2.1, ?_⟩
    obtain ⟨u, rfl, hu⟩ := h'.2.2.2.2.2.2
    rcases hv' with rfl | rfl <;> simpa using hu

/-! ## YAML -/

mutual
/-- Trees without tags. -/
def Tagless : PyVal → Prop
  | .none => True
  | .bool _ => True
  | .int _ => True
  | .float _ => True
  | .str _ => True
  | .list l => TaglessList l
  | .dict kv => TaglessAttrs kv
  | _ => False
def TaglessList : PyList → Prop
  | .nil => True
  | .cons v l => Tagless v ∧ TaglessList l
def TaglessAttrs : Attrs → Prop
  | .nil => True
  | .cons _ v rest => Tagless v ∧ TaglessAttrs rest
end

mutual
theorem yaml_tagless : (v : PyVal) → Tagless v → yamlRoundTrip v = jsonRoundTrip v
  | .none, _ => by simp only [yamlRoundTrip, jsonRoundTrip]
  | .bool _, _ => by simp only [yamlRoundTrip, jsonRoundTrip]
  | .int _, _ => by simp only [yamlRoundTrip, jsonRoundTrip]
  | .float _, _ => by simp only [yamlRoundTrip, jsonRoundTrip]
  | .str _, _ => by simp only [yamlRoundTrip, jsonRoundTrip]
  | .list l, h => by simp only [yamlRoundTrip, jsonRoundTrip, yaml_taglessList l h]
  | .dict kv, h => by simp only [yamlRoundTrip, jsonRoundTrip, yaml_taglessAttrs kv h]
theorem yaml_taglessList : (l : PyList) → TaglessList l → yamlRoundTripList l = jsonRoundTripList l
  | .nil, _ => by simp only [yamlRoundTripList, jsonRoundTripList]
  | .cons v l, h => by simp only [yamlRoundTripList, jsonRoundTripList, yaml_tagless v h.1, yaml_taglessList l h.2]
theorem yaml_taglessAttrs : (a : Attrs) → TaglessAttrs a → yamlRoundTripAttrs a = jsonRoundTripAttrs a
  | .nil, _ => by simp only [yamlRoundTripAttrs, jsonRoundTripAttrs]
  | .cons _ v rest, h => by
    simp only [yamlRoundTripAttrs, jsonRoundTripAttrs, yaml_tagless v h.1, yaml_taglessAttrs rest h.2]
end

mutual
theorem tagless_plain : (v : PyVal) → Plain v → Tagless v
  | .none, _ => trivial
  | .bool _, _ => trivial
  | .int _, _ => trivial
  | .float _, _ => trivial
  | .str _, _ => trivial
  | .list l, h => by
    simp only [Tagless]
    exact tagless_plainList l h
theorem tagless_plainList : (l : PyList) → PlainList l → TaglessList l
  | .nil, _ => trivial
  | .cons v l, h => ⟨tagless_plain v h.1, tagless_plainList l h.2⟩
end

theorem TaglessAttrs.set : (a : Attrs) → (k : String) → (v : PyVal) → TaglessAttrs a → Tagless v →
    TaglessAttrs (a.set k v)
  | .nil, _, _, _, hv => ⟨hv, trivial⟩
  | .cons x w rest, k, v, h, hv => by
    unfold Attrs.set
    split_ifs
    · exact ⟨hv, h.2⟩
    · exact ⟨h.1, TaglessAttrs.set rest k v h.2 hv⟩

mutual
theorem toDictValue_tagless : (ct : Bool) → (v : PyVal) → Storable v → NoNumpyFloat v →
    toDictValue ct v = toDictValue false v ∧ ∀ w, toDictValue false v = .ok w → Tagless w
  | _, .none, _, _ => by simp only [toDictValue, Except.ok.injEq, true_and]; rintro w rfl; trivial
  | _, .bool _, _, _ => by simp only [toDictValue, Except.ok.injEq, true_and]; rintro w rfl; trivial
  | _, .int _, _, _ => by simp only [toDictValue, Except.ok.injEq, true_and]; rintro w rfl; trivial
  | _, .float _, _, _ => by simp only [toDictValue, Except.ok.injEq, true_and]; rintro w rfl; trivial
  | _, .str _, _, _ => by simp only [toDictValue, Except.ok.injEq, true_and]; rintro w rfl; trivial
  | _, .list l, h, _ => by
    simp only [toDictValue, Except.ok.injEq, true_and]
    rintro w rfl
    exact tagless_plain (.list l) (by simpa [Storable, Plain] using h)
  | _, .array s A, _, _ => by
    simp only [toDictValue, Except.ok.injEq, true_and]
    rintro w rfl
    exact tagless_plain _ (plain_toList s A)
  | _, .obj m c a, h, hn => by
    simp only [toDictValue, true_and]
    intro w hw
    exact (recursiveToDict_tagless false m c a h.1 hn).2 w hw
theorem recursiveToDict_tagless : (ct : Bool) → (m c : String) → (a : Attrs) → StorableAttrs a → NoNumpyFloatAttrs a →
    recursiveToDict ct (.obj m c a) = recursiveToDict false (.obj m c a) ∧
      ∀ w, recursiveToDict false (.obj m c a) = .ok w → Tagless w
  | ct, m, c, a, h, hn => by
    have key := loop_tagless ct a (.cons "module" (.str m) (.cons "class" (.str c) .nil)) h hn
      ⟨trivial, trivial, trivial⟩
    simp only [recursiveToDict]
    refine ⟨by rw [key.1], ?_⟩
    intro w hw
    cases hl : recursiveToDictLoop false a (.cons "module" (.str m) (.cons "class" (.str c) .nil)) with
    | error e => rw [hl] at hw; cases hw
    | ok r =>
      rw [hl] at hw
      injection hw with hw
      rw [← hw]
      simp only [Tagless]
      exact key.2 r hl
theorem loop_tagless : (ct : Bool) → (a r : Attrs) → StorableAttrs a → NoNumpyFloatAttrs a → TaglessAttrs r →
    recursiveToDictLoop ct a r = recursiveToDictLoop false a r ∧
      ∀ w, recursiveToDictLoop false a r = .ok w → TaglessAttrs w
  | _, .nil, r, _, _, hr => by
    simp only [recursiveToDictLoop, Except.ok.injEq, true_and]
    rintro w rfl
    exact hr
  | ct, .cons k v rest, r, h, hn, hr => by
    obtain ⟨h1, h2⟩ := toDictValue_tagless ct v h.1 hn.1
    simp only [recursiveToDictLoop]
    rw [h1]
    cases hv : toDictValue false v with
    | error e => exact ⟨rfl, fun w hw => by cases hw⟩
    | ok x => exact loop_tagless ct rest (r.set k x) h.2 hn.2 (TaglessAttrs.set r k x hr (h2 x hv))
end

/-- **C52.** Without `np.float64` values, YAML files do the same as JSON files. -/
theorem C52_yaml_eq_json (reg : Registry) {m c : String} {a : Attrs} (hs : Storable (.obj m c a))
    (hn : NoNumpyFloat (.obj m c a)) : yamlSaveAndLoad reg (.obj m c a) = jsonSaveAndLoad reg (.obj m c a) := by
  obtain ⟨h1, h2⟩ := recursiveToDict_tagless true m c a hs.1 hn
  unfold yamlSaveAndLoad jsonSaveAndLoad
  rw [h1]
  cases h : recursiveToDict false (.obj m c a) with
  | error e => rfl
  | ok w =>
    have := yaml_tagless w (h2 w h)
    simp only [bind, Except.bind, this]

theorem ForcingTerm.noNumpyFloat (ft : ForcingTerm d m) : NoNumpyFloat ft.toPy := by
  simp [ForcingTerm.toPy, ForcingTerm.attrs, Attrs.ofList, NoNumpyFloat, NoNumpyFloatAttrs, pyVec, pyMat]

theorem pyOpt_noNumpyFloat (x : Option ℝ) : NoNumpyFloat (pyOpt x) := by
  cases x <;> simp [pyOpt, NoNumpyFloat]

/-- **C52.** DMPs and YAML. -/
theorem C52_dmp_yaml {s : DMP d m} (hs : s.Reachable) (hd : 0 < d) :
    ∃ a', yamlSaveAndLoad library s.toPy = .ok (.obj "movement_primitives.dmp._dmp" "DMP" a') ∧
      RestoredAttrs s.attrs a' ∧ ∀ k, s.attrs.get k = none → a'.get k = none := by
  have hn : NoNumpyFloat s.toPy := by
    simp [DMP.toPy, DMP.attrs, Movement.attrs, Attrs.ofList, NoNumpyFloat, NoNumpyFloatAttrs, pyVec,
      pyOpt_noNumpyFloat, ForcingTerm.noNumpyFloat]
  have h := C52_yaml_eq_json library (DMP.storable hd (by have := hs.two_le; omega) s) hn
  unfold DMP.toPy
  rw [h]
  exact C52_dmp hs hd

/-- **C52.** Cartesian DMPs and YAML. -/
theorem C52_cartesian_dmp_yaml (hm : 2 ≤ m) (s : CartesianDMP m) (b : Bool) :
    ∃ a', yamlSaveAndLoad library (s.toPy b) =
        .ok (.obj "movement_primitives.dmp._cartesian_dmp" "CartesianDMP" a') ∧
      RestoredAttrs (s.attrs b) a' ∧ ∀ k, (s.attrs b).get k = none → a'.get k = none := by
  have hn : NoNumpyFloat (s.toPy b) := by
    simp [CartesianDMP.toPy, CartesianDMP.attrs, Movement.attrs, Attrs.ofList, NoNumpyFloat, NoNumpyFloatAttrs, pyVec,
      pyOpt_noNumpyFloat, ForcingTerm.noNumpyFloat]
  have h := C52_yaml_eq_json library (CartesianDMP.storable (by omega) s b) hn
  unfold CartesianDMP.toPy
  rw [h]
  exact C52_cartesian_dmp hm s b

/-- **C52.** ProMPs whose weight distribution was not learned with `imitate`, and YAML. -/
theorem C52_promp_yaml (hd : 0 < d) (hw : 0 < w) (p : ProMP d w) (hv : p.variance = none) :
    ∃ a', yamlSaveAndLoad library p.toPy = .ok (.obj "movement_primitives.promp" "ProMP" a') ∧
      RestoredAttrs p.attrs a' ∧ ∀ k, p.attrs.get k = none → a'.get k = none := by
  have hn : NoNumpyFloat p.toPy := by
    simp [ProMP.toPy, ProMP.attrs, Attrs.ofList, NoNumpyFloat, NoNumpyFloatAttrs, pyVec, pyMat, hv]
  have h := C52_yaml_eq_json library (ProMP.storable hd hw p) hn
  unfold ProMP.toPy
  rw [h]
  exact C52_promp hd hw p

/-! ## Objects that are not restored -/

theorem yaml_toList (s : List ℕ) (A : NdArr s) : yamlRoundTrip (toList s A) = .ok (toList s A) := by
  rw [yaml_tagless _ (tagless_plain _ (plain_toList s A)), json_plain _ (plain_toList s A)]

/-- Nested lists of the numbers in an array. -/
def listOf {n : ℕ} (x : Vec n) : PyVal := toList [n] x

/-- Nested lists of the numbers in an array. -/
def listsOf {n k : ℕ} (x : Fin n → Fin k → ℝ) : PyVal := toList [n, k] x

theorem toDictValue_array (b : Bool) (s : List ℕ) (A : NdArr s) : toDictValue b (.array s A) = .ok (toList s A) := by
  simp only [toDictValue]

theorem toDictValue_pyVec {n : ℕ} (b : Bool) (x : Vec n) : toDictValue b (pyVec x) = .ok (listOf x) := by
  exact toDictValue_array b [n] x

theorem toDictValue_pyMat {n k : ℕ} (b : Bool) (x : Fin n → Fin k → ℝ) : toDictValue b (pyMat x) = .ok (listsOf x) := by
  exact toDictValue_array b [n, k] x

theorem yaml_listOf {n : ℕ} (x : Vec n) : yamlRoundTrip (listOf x) = .ok (listOf x) := yaml_toList [n] x

theorem yaml_listsOf {n k : ℕ} (x : Fin n → Fin k → ℝ) : yamlRoundTrip (listsOf x) = .ok (listsOf x) :=
  yaml_toList [n, k] x

theorem json_listOf {n : ℕ} (x : Vec n) : jsonRoundTrip (listOf x) = .ok (listOf x) :=
  json_plain _ (plain_toList [n] x)

theorem json_listsOf {n k : ℕ} (x : Fin n → Fin k → ℝ) : jsonRoundTrip (listsOf x) = .ok (listsOf x) :=
  json_plain _ (plain_toList [n, k] x)

/-- **C52 (finding).** A ProMP after `imitate` is written to a YAML file that `read_yaml` refuses: the attribute
`variance` is a `np.float64`. -/
theorem C52_learned_promp_yaml_unreadable (p : ProMP d w) {x : ℝ} (hv : p.variance = some x) :
    yamlSaveAndLoad library p.toPy = .error .yamlError := by
  have hd : recursiveToDict true p.toPy = .ok (.dict (.cons "module" (.str "movement_primitives.promp")
      (.cons "class" (.str "ProMP") (.cons "n_dims" (.int d) (.cons "n_weights_per_dim" (.int w)
      (.cons "n_weights" (.int (d * w : ℕ)) (.cons "weight_mean" (listOf p.weightMean)
      (.cons "weight_cov" (listsOf fun i j => p.weightCov i j)
      (.cons "centers" (listOf p.centers) (.cons "variance" (.npFloat x) .nil)))))))))) := by
    simp [ProMP.toPy, ProMP.attrs, hv, Attrs.ofList, recursiveToDict, recursiveToDictLoop, toDictValue,
      toDictValue_pyVec, toDictValue_pyMat, Attrs.set, bind, Except.bind, Pure.pure, Except.pure]
  unfold yamlSaveAndLoad
  rw [hd]
  simp [bind, Except.bind, yamlRoundTrip, yamlRoundTripAttrs, yaml_listOf, yaml_listsOf]

/-- A `MinimumJerkTrajectory` after a step. -/
def minimumJerkAttrs {n : ℕ} (s : Movement d d) (X Xd : Fin n → Vec d) (executionTime dt : ℝ) (stepIdx : ℕ) : Attrs :=
  Attrs.ofList ((s.attrs false).dropLast ++
    [("X", pyMat X), ("Xd", pyMat Xd), ("execution_time", .float executionTime), ("dt", .float dt),
     ("step_idx", .int stepIdx), ("initialized", .bool true)])

theorem fromDictValue_listOf {n k : ℕ} (hn : 0 < n) (x : Vec n) (y : Vec k) :
    fromDictValue (listOf x) (some (pyVec y)) = .ok (pyVec x) := by
  have h := npArray_toList [n] (by simpa using hn) x
  unfold listOf pyVec
  have : toList [n] x = .list (PyList.ofList (List.ofFn fun i => toList [] (x i))) := rfl
  rw [this] at h ⊢
  simp only [fromDictValue, h]
  rfl

theorem fromDictValue_listsOf {n k : ℕ} (X : Fin n → Fin k → ℝ) :
    fromDictValue (listsOf X) (some .none) = .ok (listsOf X) := by
  unfold listsOf
  have : toList [n, k] X = .list (PyList.ofList (List.ofFn fun i => toList [k] (X i))) := rfl
  rw [this]
  simp only [fromDictValue]

/-- **C52 (finding).** A `MinimumJerkTrajectory` after its first step is restored except for `X` and `Xd`, which are
arrays in the original and lists of lists in the loaded object: they are `None` in a new object, so `read_json` does not
know that they were arrays. -/
theorem C52_minimum_jerk_lists {n : ℕ} (hd : 0 < d) (s : Movement d d) (X Xd : Fin n → Vec d)
    (executionTime dt : ℝ) (stepIdx : ℕ) (hl : s.lastT = none) :
    ∃ a', jsonSaveAndLoad library (.obj "movement_primitives.minimum_jerk_trajectory" "MinimumJerkTrajectory"
        (minimumJerkAttrs s X Xd executionTime dt stepIdx)) =
        .ok (.obj "movement_primitives.minimum_jerk_trajectory" "MinimumJerkTrajectory" a') ∧
      a'.get "X" = some (listsOf X) ∧ a'.get "Xd" = some (listsOf Xd) ∧
      RestoredAttrs (without ["X", "Xd"] (minimumJerkAttrs s X Xd executionTime dt stepIdx)) a' := by
  have hr : recursiveToDict false (.obj "movement_primitives.minimum_jerk_trajectory" "MinimumJerkTrajectory"
      (minimumJerkAttrs s X Xd executionTime dt stepIdx)) = .ok (.dict
      (Attrs.ofList [("module", .str "movement_primitives.minimum_jerk_trajectory"),
        ("class", .str "MinimumJerkTrajectory"), ("n_dims", .int d), ("n_vel_dims", .int d), ("t", .float s.t),
        ("last_t", .none), ("start_y", listOf s.startY), ("start_yd", listOf s.startYd),
        ("start_ydd", listOf s.startYdd), ("goal_y", listOf s.goalY), ("goal_yd", listOf s.goalYd),
        ("goal_ydd", listOf s.goalYdd), ("current_y", listOf s.currentY), ("current_yd", listOf s.currentYd),
        ("X", listsOf X), ("Xd", listsOf Xd), ("execution_time", .float executionTime), ("dt", .float dt),
        ("step_idx", .int stepIdx), ("initialized", .bool true)])) := by
    simp [minimumJerkAttrs, Movement.attrs, hl, pyOpt, Attrs.ofList, recursiveToDict, recursiveToDictLoop, toDictValue,
      toDictValue_pyVec, toDictValue_pyMat, Attrs.set, bind, Except.bind, Pure.pure, Except.pure]
  have hj : ∀ a, jsonRoundTrip (.dict a) = do return .dict (← jsonRoundTripAttrs a) := by
    intro a; simp only [jsonRoundTrip]
  have hp : ∀ x y, popArgs minimumJerkPyClass.args x y = popArgs ["n_dims", "execution_time", "dt"] x y :=
    fun _ _ => rfl
  have hc : ∀ kw, minimumJerkPyClass.construct kw = (do
    let d ← kwInt kw "n_dims" none
    let executionTime ← match kw.get "execution_time" with
      | some v => pure v
      | none => throw .typeError
    let dt ← kwFloat kw "dt" (1 / 100)
    return Attrs.ofList ((Movement.attrs (Movement.init d.toNat d.toNat) false).dropLast ++
      [("X", .none), ("Xd", .none), ("execution_time", executionTime), ("dt", .float dt), ("step_idx", .int 0),
       ("initialized", .bool false)])) := fun _ => rfl
  have hlib : library "movement_primitives.minimum_jerk_trajectory" =
      some fun c => if c = "MinimumJerkTrajectory" then some minimumJerkPyClass else none := by
    simp [library]
  unfold jsonSaveAndLoad
  rw [hr]
  simp only [bind, Except.bind, hj, Attrs.ofList, jsonRoundTripAttrs, jsonRoundTrip, json_listOf, json_listsOf,
    Pure.pure, Except.pure]
  unfold dictToObject
  simp [Attrs.get, Attrs.erase, hlib, hp, hc, popArgs, Attrs.set, kwInt, kwFloat, Movement.attrs, Attrs.ofList,
    recursiveFromDict, bind, Except.bind, Pure.pure, Except.pure, fromDictValue, fromDictValue_listOf hd,
    fromDictValue_listsOf]
  simp [minimumJerkAttrs, Movement.attrs, hl, pyOpt, Attrs.ofList, without, RestoredAttrs, Restored, Attrs.get,
    restored_pyVec]

/-- **C52 (finding).** "Basic data types" of the documentation do not include tuples: an attribute that is a tuple is
restored as a list (and not at all from YAML, if it belongs to an object that is an attribute). -/
theorem C52_tuple_becomes_list (reg : Registry) (cd : String → Option PyClass) (clazz : PyClass) (module cls : String)
    (hm : reg module = some cd) (hc : cd cls = some clazz) (ha : clazz.args = [])
    (hf : clazz.construct .nil = .ok (.cons "x" .none .nil)) (z : ℤ) :
    jsonSaveAndLoad reg (.obj module cls (.cons "x" (.tuple (.cons (.int z) .nil)) .nil)) =
      .ok (.obj module cls (.cons "x" (.list (.cons (.int z) .nil)) .nil)) := by
  simp [jsonSaveAndLoad, recursiveToDict, recursiveToDictLoop, toDictValue, bind, Except.bind, Pure.pure, Except.pure,
    Attrs.set, jsonRoundTrip, jsonRoundTripAttrs, jsonRoundTripList, dictToObject, Attrs.get, Attrs.erase, hm, hc, ha,
    popArgs, hf, recursiveFromDict, fromDictValue]

/-! ## Instances -/

/-- A DMP that was configured and moved. -/
example : ∃ s : DMP 2 10, s.Reachable ∧ ∃ a', jsonSaveAndLoad library s.toPy =
    .ok (.obj "movement_primitives.dmp._dmp" "DMP" a') ∧ RestoredAttrs s.attrs a' := by
  obtain ⟨s, hs, -⟩ := DMP.create_ok 2 10 (by norm_num) one_pos (1 / 100) (1 / 1000) 0 false 25 (25 / 4)
  have h : s.Reachable := .create hs
  have h' : (DMPOp.reset.exec s).2.Reachable := .op .reset h rfl (by rintro τ ⟨⟩)
  obtain ⟨a', h1, h2, -⟩ := C52_dmp h' (by norm_num)
  exact ⟨_, h', a', h1, h2⟩

/-- The default ProMP. -/
example : ∃ a', jsonSaveAndLoad library (ProMP.init 2 10).toPy = .ok (.obj "movement_primitives.promp" "ProMP" a') :=
  let ⟨a', h, _⟩ := C52_promp (by norm_num) (by norm_num) (ProMP.init 2 10)
  ⟨a', h⟩

end Verif
