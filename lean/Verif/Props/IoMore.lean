import Verif.Props.IoClasses

/-! # Files with missing entries, and tuples in YAML files (C52) -/

namespace Verif
open Spec

/-- **C52.** A file that only names the class and the number of dimensions gives the DMP that the constructor makes with its
default arguments. -/
theorem C52_defaults_dmp (d : ℕ) : ∃ s, DMP.create d 10 1 (1 / 100) (1 / 1000) 0 false (.scalar 25) (.scalar (25 / 4)) = .ok s ∧
    dictToObject library (.ofList [("module", .str "movement_primitives.dmp._dmp"), ("class", .str "DMP"),
      ("n_dims", .int d)]) = .ok s.toPy := by
  obtain ⟨s, hs, -⟩ := DMP.create_ok d 10 (by norm_num) one_pos (1 / 100) (1 / 1000) 0 false 25 (25 / 4)
  refine ⟨s, hs, ?_⟩
  have hl : library "movement_primitives.dmp._dmp" = some fun c => if c = "DMP" then some DMP.pyClass else none := by
    simp [library]
  have hc : DMP.pyClass.construct (.cons "n_dims" (.int d) .nil) = .ok s.attrs := by
    have h10 : (10 : ℤ).toNat = 10 := rfl
    simp only [DMP.pyClass, kwInt, kwFloat, kwBool, kwArrayLike, Attrs.get, if_true, bind, Except.bind]
    simp only [show ("n_dims" = "execution_time") = False by simp, show ("n_dims" = "dt") = False by simp,
      show ("n_dims" = "n_weights_per_dim") = False by simp, show ("n_dims" = "int_dt") = False by simp,
      show ("n_dims" = "p_gain") = False by simp, show ("n_dims" = "smooth_scaling") = False by simp,
      show ("n_dims" = "alpha_y") = False by simp, show ("n_dims" = "beta_y") = False by simp, if_false]
    have h : DMP.create (Int.toNat (d : ℤ)) (Int.toNat 10) 1 (1 / 100) (1 / 1000) 0 false (.scalar 25) (.scalar (25 / 4)) =
      .ok s := hs
    rw [h]
    rfl
  have hp : ∀ kw : Attrs, popArgs DMP.pyClass.args (.cons "n_dims" (.int d) .nil) .nil =
      (.nil, .cons "n_dims" (.int d) .nil) := by
    intro kw
    simp [DMP.pyClass, popArgs, Attrs.get, Attrs.erase, Attrs.set]
  simp only [dictToObject, Attrs.ofList, Attrs.get, if_true, hl, Attrs.erase, hp .nil, hc, bind, Except.bind,
    recursiveFromDict]
  rfl

/-- **C52.** The same for a Cartesian DMP, for which no entry is needed besides the class. -/
theorem C52_defaults_cartesian_dmp : ∃ s, CartesianDMP.create 10 1 (1 / 100) (1 / 1000) false (.scalar 25) (.scalar (25 / 4)) = .ok s ∧
    dictToObject library (.ofList [("module", .str "movement_primitives.dmp._cartesian_dmp"), ("class", .str "CartesianDMP")]) =
      .ok (s.toPy false) := by
  obtain ⟨s, hs, -⟩ := CartesianDMP.create_ok 10 (by norm_num) one_pos (1 / 100) (1 / 1000) false 25 (25 / 4)
  refine ⟨s, hs, ?_⟩
  have hl : library "movement_primitives.dmp._cartesian_dmp" =
      some fun c => if c = "CartesianDMP" then some CartesianDMP.pyClass else none := by
    simp [library]
  have hc : CartesianDMP.pyClass.construct .nil = .ok (s.attrs false) := by
    simp only [CartesianDMP.pyClass, kwInt, kwFloat, kwBool, kwArrayLike, Attrs.get, bind, Except.bind]
    have h : CartesianDMP.create (Int.toNat 10) 1 (1 / 100) (1 / 1000) false (.scalar 25) (.scalar (25 / 4)) =
      .ok s := hs
    rw [h]
    rfl
  have hp : popArgs CartesianDMP.pyClass.args .nil .nil = (.nil, .nil) := by
    simp [CartesianDMP.pyClass, popArgs, Attrs.get]
  simp only [dictToObject, Attrs.ofList, Attrs.get, if_true, hl, Attrs.erase, hp, hc, bind, Except.bind,
    recursiveFromDict]
  rfl

/-- **C52.** The same for a ProMP. -/
theorem C52_defaults_promp (d : ℕ) :
    dictToObject library (.ofList [("module", .str "movement_primitives.promp"), ("class", .str "ProMP"), ("n_dims", .int d)]) =
      .ok (ProMP.init d 10).toPy := by
  have hl : library "movement_primitives.promp" = some fun c => if c = "ProMP" then some ProMP.pyClass else none := by
    simp [library]
  have hc : ProMP.pyClass.construct (.cons "n_dims" (.int d) .nil) = .ok (ProMP.init d 10).attrs := by
    simp only [ProMP.pyClass, kwInt, Attrs.get, if_true, bind, Except.bind,
      show ("n_dims" = "n_weights_per_dim") = False by simp, if_false]
    rfl
  have hp : popArgs ProMP.pyClass.args (.cons "n_dims" (.int d) .nil) .nil = (.nil, .cons "n_dims" (.int d) .nil) := by
    simp [ProMP.pyClass, popArgs, Attrs.get, Attrs.erase, Attrs.set]
  simp only [dictToObject, Attrs.ofList, Attrs.get, if_true, hl, Attrs.erase, hp, hc, bind, Except.bind,
    recursiveFromDict]
  rfl

/-- **C52.** A file of a class with a required parameter `n_dims` that does not name it is refused with a TypeError. -/
theorem C52_missing_argument (m c : String) (h : (m, c) ∈ [("movement_primitives.dmp._dmp", "DMP"),
      ("movement_primitives.promp", "ProMP"), ("movement_primitives.minimum_jerk_trajectory", "MinimumJerkTrajectory")]) :
    dictToObject library (.ofList [("module", .str m), ("class", .str c)]) = .error .typeError := by
  simp only [List.mem_cons, Prod.mk.injEq, List.not_mem_nil, or_false] at h
  rcases h with ⟨rfl, rfl⟩ | ⟨rfl, rfl⟩ | ⟨rfl, rfl⟩
  · simp [dictToObject, Attrs.ofList, Attrs.get, Attrs.erase, library, DMP.pyClass, popArgs, kwInt, bind, Except.bind]
  · simp [dictToObject, Attrs.ofList, Attrs.get, Attrs.erase, library, ProMP.pyClass, popArgs, kwInt, bind, Except.bind]
  · simp [dictToObject, Attrs.ofList, Attrs.get, Attrs.erase, library, minimumJerkPyClass, popArgs, kwInt, bind, Except.bind]

/-- **C52 (finding).** `write_yaml` converts tuples to lists only in the object itself: if an object that is an attribute has
a tuple, the file is written but cannot be read. JSON has no such restriction (`C52_tuple_becomes_list`). -/
theorem C52_nested_tuple_yaml (reg : Registry) (module cls module' cls' : String) (l : PyList) :
    yamlSaveAndLoad reg (.obj module cls (.cons "inner" (.obj module' cls' (.cons "x" (.tuple l) .nil)) .nil)) =
      .error .yamlError := by
  simp [yamlSaveAndLoad, recursiveToDict, recursiveToDictLoop, toDictValue, bind, Except.bind, Pure.pure, Except.pure,
    Attrs.set, yamlRoundTrip, yamlRoundTripAttrs]

/-- **C52.** A tuple of the object itself is written to YAML as a list. -/
theorem C52_tuple_yaml (reg : Registry) (cd : String → Option PyClass) (clazz : PyClass) (module cls : String)
    (hm : reg module = some cd) (hc : cd cls = some clazz) (ha : clazz.args = [])
    (hf : clazz.construct .nil = .ok (.cons "x" .none .nil)) (z : ℤ) :
    yamlSaveAndLoad reg (.obj module cls (.cons "x" (.tuple (.cons (.int z) .nil)) .nil)) =
      .ok (.obj module cls (.cons "x" (.list (.cons (.int z) .nil)) .nil)) := by
  simp [yamlSaveAndLoad, recursiveToDict, recursiveToDictLoop, toDictValue, bind, Except.bind, Pure.pure, Except.pure,
    Attrs.set, yamlRoundTrip, yamlRoundTripAttrs, yamlRoundTripList, dictToObject, Attrs.get, Attrs.erase, hm, hc, ha,
    popArgs, hf, recursiveFromDict, fromDictValue]

/-- A class as in the previous theorem. -/
example : ∃ (reg : Registry) (cd : String → Option PyClass) (clazz : PyClass), reg "m" = some cd ∧ cd "C" = some clazz ∧
    clazz.args = [] ∧ clazz.construct .nil = .ok (.cons "x" .none .nil) :=
  ⟨fun _ => some fun _ => some ⟨[], fun _ => .ok (.cons "x" .none .nil)⟩, _, _, rfl, rfl, rfl, rfl⟩

end Verif
