import Verif.Spec.Io

/-! # Helper lemmas about saving and loading -/

namespace Verif
open Spec

namespace Attrs

theorem get_set_self (a : Attrs) (k : String) (v : PyVal) : (a.set k v).get k = some v := by
  match a with
  | .nil => simp [Attrs.set, Attrs.get]
  | .cons x w rest =>
    unfold Attrs.set
    by_cases h : x = k
    · simp [h, Attrs.get]
    · simp only [h, if_false, Attrs.get]
      exact get_set_self rest k v

theorem get_set_of_ne (a : Attrs) {k x : String} (h : x ≠ k) (v : PyVal) : (a.set k v).get x = a.get x := by
  match a with
  | .nil => simp [Attrs.set, Attrs.get, h.symm]
  | .cons y w rest =>
    unfold Attrs.set
    by_cases hy : y = k
    · have : ¬ k = x := fun e => h e.symm
      simp [hy, Attrs.get, this]
    · simp only [hy, if_false, Attrs.get]
      rw [get_set_of_ne rest h v]

theorem get_erase_of_ne (a : Attrs) {k x : String} (h : x ≠ k) : (a.erase k).get x = a.get x := by
  match a with
  | .nil => rfl
  | .cons y w rest =>
    unfold Attrs.erase
    by_cases hy : y = k
    · have : ¬ k = x := fun e => h e.symm
      simp [hy, Attrs.get, this]
    · simp only [hy, if_false, Attrs.get]
      rw [get_erase_of_ne rest h]

theorem get_none_iff (a : Attrs) (k : String) : a.get k = none ↔ k ∉ a.keys := by
  match a with
  | .nil => simp [Attrs.get, Attrs.keys]
  | .cons y w rest =>
    unfold Attrs.get Attrs.keys
    by_cases hy : y = k
    · simp [hy]
    · have : ¬ k = y := fun e => hy e.symm
      simp [hy, this, get_none_iff rest k]

/-- `a` followed by `b`. -/
def append : Attrs → Attrs → Attrs
  | .nil, b => b
  | .cons k v rest, b => .cons k v (append rest b)

theorem append_nil (a : Attrs) : a.append .nil = a := by
  match a with
  | .nil => rfl
  | .cons k v rest => simp [append, append_nil rest]

theorem append_assoc (a b c : Attrs) : (a.append b).append c = a.append (b.append c) := by
  match a with
  | .nil => rfl
  | .cons k v rest => simp [append, append_assoc rest]

theorem keys_append (a b : Attrs) : (a.append b).keys = a.keys ++ b.keys := by
  match a with
  | .nil => rfl
  | .cons k v rest => simp [append, keys, keys_append rest]

theorem set_new (a : Attrs) {k : String} (h : k ∉ a.keys) (v : PyVal) : a.set k v = a.append (.cons k v .nil) := by
  match a with
  | .nil => rfl
  | .cons x w rest =>
    simp only [keys, List.mem_cons, not_or] at h
    have : ¬ x = k := fun e => h.1 e.symm
    simp [Attrs.set, append, this, set_new rest h.2]

/-- `f` applied to all values. -/
def mapM (f : PyVal → Except PyErr PyVal) : Attrs → Except PyErr Attrs
  | .nil => .ok .nil
  | .cons k v rest => do
    let w ← f v
    let r ← mapM f rest
    return .cons k w r

end Attrs

/-- Value in the text of a saved JSON file. -/
def saved (v : PyVal) : Except PyErr PyVal := do
  let w ← toDictValue false v
  jsonRoundTrip w

theorem saved_of {v w : PyVal} (h : toDictValue false v = .ok w) : saved v = jsonRoundTrip w := by
  unfold saved; rw [h]; rfl

theorem toDictLoop_eq (ct : Bool) : (a result : Attrs) → a.keys.Nodup → (∀ k ∈ a.keys, k ∉ result.keys) →
    recursiveToDictLoop ct a result = (do let ws ← a.mapM (toDictValue ct); return result.append ws)
  | .nil, result, _, _ => by
    simp [recursiveToDictLoop, Attrs.mapM, Attrs.append_nil]
  | .cons k v rest, result, hn, hd => by
    simp only [Attrs.keys, List.nodup_cons] at hn
    have hk : k ∉ result.keys := hd k (by simp [Attrs.keys])
    unfold recursiveToDictLoop Attrs.mapM
    cases hw : toDictValue ct v with
    | error e => rfl
    | ok w =>
      have ih := toDictLoop_eq ct rest (result.set k w) hn.2 (by
        intro x hx
        rw [Attrs.set_new _ hk, Attrs.keys_append]
        simp only [Attrs.keys, List.mem_append, List.mem_singleton, not_or]
        refine ⟨hd x (by simp [Attrs.keys, hx]), fun e => hn.1 (e ▸ hx)⟩)
      show recursiveToDictLoop ct rest (result.set k w) = _
      rw [ih]
      cases hr : rest.mapM (toDictValue ct) with
      | error e => rfl
      | ok ws =>
        show Except.ok _ = Except.ok _
        rw [Attrs.set_new _ hk, Attrs.append_assoc]
        rfl

theorem jsonAttrs_append : (a b : Attrs) → jsonRoundTripAttrs (a.append b) = (do
    let x ← jsonRoundTripAttrs a
    let y ← jsonRoundTripAttrs b
    return x.append y)
  | .nil, b => by
    simp only [Attrs.append, jsonRoundTripAttrs]
    cases jsonRoundTripAttrs b <;> rfl
  | .cons k v rest, b => by
    simp only [Attrs.append, jsonRoundTripAttrs, jsonAttrs_append rest b]
    cases jsonRoundTrip v <;> cases jsonRoundTripAttrs rest <;> cases jsonRoundTripAttrs b <;> rfl

/-- If all values can be saved, so can the attributes. -/
theorem mapM_saved : {a ws xs : Attrs} → a.mapM saved = .ok xs →
    ∃ ws, a.mapM (toDictValue false) = .ok ws ∧ jsonRoundTripAttrs ws = .ok xs
  | .nil, _, xs, h => ⟨.nil, rfl, by
      have : xs = .nil := by injection h with h; exact h.symm
      rw [this]; rfl⟩
  | .cons k v rest, _, xs, h => by
    simp only [Attrs.mapM] at h
    cases hw : toDictValue false v with
    | error e =>
      have hsv : saved v = .error e := by unfold saved; rw [hw]; rfl
      rw [hsv] at h; cases h
    | ok w =>
      have hsv : saved v = jsonRoundTrip w := by unfold saved; rw [hw]; rfl
      rw [hsv] at h
      cases hj : jsonRoundTrip w with
      | error e => rw [hj] at h; cases h
      | ok x =>
        rw [hj] at h
        cases hr : rest.mapM saved with
        | error e => rw [hr] at h; cases h
        | ok r =>
          obtain ⟨ws, h1, h2⟩ := mapM_saved (ws := .nil) hr
          rw [hr] at h
          have hx : xs = .cons k x r := by injection h with h; exact h.symm
          refine ⟨.cons k w ws, ?_, ?_⟩
          · simp only [Attrs.mapM, hw, h1]; rfl
          · simp only [jsonRoundTripAttrs, hj, h2, hx]; rfl

mutual
theorem json_plain : (v : PyVal) → Plain v → jsonRoundTrip v = .ok v
  | .none, _ => rfl
  | .bool _, _ => rfl
  | .int _, _ => rfl
  | .float _, _ => rfl
  | .str _, _ => rfl
  | .list l, h => by simp only [jsonRoundTrip, json_plainList l h]; rfl
  | .npFloat _, h => h.elim
  | .tuple _, h => h.elim
  | .array _ _, h => h.elim
  | .dict _, h => h.elim
  | .obj _ _ _, h => h.elim
theorem json_plainList : (l : PyList) → PlainList l → jsonRoundTripList l = .ok l
  | .nil, _ => rfl
  | .cons v l, h => by
    simp only [jsonRoundTripList, json_plain v h.1, json_plainList l h.2]; rfl
end

theorem plainList_ofList : (l : List PyVal) → (∀ v ∈ l, Plain v) → PlainList (PyList.ofList l)
  | [], _ => trivial
  | v :: l, h => ⟨h v (by simp), plainList_ofList l fun w hw => h w (by simp [hw])⟩

theorem plain_toList : (s : List ℕ) → (A : NdArr s) → Plain (toList s A)
  | [], _ => trivial
  | n :: s, A => by
    show PlainList _
    apply plainList_ofList
    intro v hv
    rw [List.mem_ofFn'] at hv
    obtain ⟨i, rfl⟩ := hv
    exact plain_toList s (A i)

theorem npArrays_ofList : (l : List (Σ s, NdArr s)) → (∀ a ∈ l, npArray (toList a.1 a.2) = .ok a) →
    npArrays (PyList.ofList (l.map fun a => toList a.1 a.2)) = .ok l
  | [], _ => rfl
  | a :: l, h => by
    simp only [List.map_cons, PyList.ofList, npArrays, h a (by simp),
      npArrays_ofList l fun b hb => h b (by simp [hb])]
    rfl

theorem cast_snd {s : List ℕ} (b : Σ s, NdArr s) (x : NdArr s) (hb : b = ⟨s, x⟩) (h : b.1 = s) : (h ▸ b.2) = x := by
  subst hb; rfl

theorem stack_ofFn {n : ℕ} (hn : 0 < n) (s : List ℕ) (A : Fin n → NdArr s) :
    stack (List.ofFn fun i => (⟨s, A i⟩ : Σ s, NdArr s)) = .ok ⟨n :: s, A⟩ := by
  obtain ⟨k, rfl⟩ : ∃ k, n = k + 1 := ⟨n - 1, by omega⟩
  rw [List.ofFn_succ]
  have h : ∀ b ∈ (⟨s, A 0⟩ : Σ s, NdArr s) :: List.ofFn (fun i : Fin k => (⟨s, A i.succ⟩ : Σ s, NdArr s)), b.1 = s := by
    intro b hb
    rw [List.mem_cons, List.mem_ofFn'] at hb
    rcases hb with rfl | ⟨i, rfl⟩ <;> rfl
  refine (dif_pos (c := ∀ b ∈ (⟨s, A 0⟩ : Σ s, NdArr s) ::
    List.ofFn (fun i : Fin k => (⟨s, A i.succ⟩ : Σ s, NdArr s)), b.1 = s) h).trans ?_
  congr 1
  have hlen : ((⟨s, A 0⟩ : Σ s, NdArr s) :: List.ofFn (fun i : Fin k => (⟨s, A i.succ⟩ : Σ s, NdArr s))).length = k + 1 := by
    simp
  have gen : ∀ (m : ℕ) (hm : m = k + 1) (B : Fin m → NdArr s), (∀ i : Fin m, B i = A (Fin.cast hm i)) →
      (⟨m :: s, B⟩ : Σ s, NdArr s) = ⟨(k + 1) :: s, A⟩ := by
    intro m hm B hB
    subst hm
    have : B = A := funext hB
    rw [this]
  refine gen _ hlen _ ?_
  intro i
  apply cast_snd
  obtain ⟨i, hi⟩ := i
  cases i with
  | zero => rfl
  | succ j =>
    simp only [List.length_cons, List.length_ofFn] at hi
    show (List.ofFn (fun i : Fin k => (⟨s, A i.succ⟩ : Σ s, NdArr s)))[j]'(by simp; omega) = _
    rw [List.getElem_ofFn]
    rfl

/-- `np.array(A.tolist()) = A` -/
theorem npArray_toList : (s : List ℕ) → (∀ n ∈ s, 0 < n) → (A : NdArr s) → npArray (toList s A) = .ok ⟨s, A⟩
  | [], _, _ => rfl
  | n :: s, h, A => by
    have ih := fun i => npArray_toList s (fun k hk => h k (by simp [hk])) (A i)
    have hl : PyList.ofList (List.ofFn fun i => toList s (A i)) =
        PyList.ofList ((List.ofFn fun i => (⟨s, A i⟩ : Σ s, NdArr s)).map fun a => toList a.1 a.2) := by
      rw [List.map_ofFn]; rfl
    have h1 : npArrays (PyList.ofList (List.ofFn fun i => toList s (A i))) =
        .ok (List.ofFn fun i => (⟨s, A i⟩ : Σ s, NdArr s)) := by
      rw [hl]
      apply npArrays_ofList
      intro a ha
      rw [List.mem_ofFn'] at ha
      obtain ⟨i, rfl⟩ := ha
      exact ih i
    show npArray (.list _) = _
    simp only [npArray, h1]
    exact stack_ofFn (h n (by simp)) s A

theorem compatible_congr : (a b b' : Attrs) → (∀ k ∈ a.keys, b.get k = b'.get k) → CompatibleAttrs a b →
    CompatibleAttrs a b'
  | .nil, _, _, _, _ => trivial
  | .cons k v rest, b, b', h, hc =>
    ⟨by rw [← h k (by simp [Attrs.keys])]; exact hc.1,
     compatible_congr rest b b' (fun x hx => h x (by simp [Attrs.keys, hx])) hc.2⟩

mutual
/-- One value: it can be saved, and loading it gives it back. -/
theorem value_restored : (v : PyVal) → (old : Option PyVal) → Storable v → Compatible v old →
    ∃ x, saved v = .ok x ∧ ∃ y, fromDictValue x old = .ok y ∧ Restored v y
  | .none, _, _, _ => ⟨.none, by
      rw [saved_of (by simp only [toDictValue]; rfl)]; simp only [jsonRoundTrip], .none, by simp [fromDictValue], by simp only [Restored]⟩
  | .bool b, _, _, _ => ⟨.bool b, by
      rw [saved_of (by simp only [toDictValue]; rfl)]; simp only [jsonRoundTrip], .bool b, by simp [fromDictValue], by simp only [Restored]⟩
  | .int b, _, _, _ => ⟨.int b, by
      rw [saved_of (by simp only [toDictValue]; rfl)]; simp only [jsonRoundTrip], .int b, by simp [fromDictValue], by simp only [Restored]⟩
  | .float b, _, _, _ => ⟨.float b, by
      rw [saved_of (by simp only [toDictValue]; rfl)]; simp only [jsonRoundTrip], .float b, by simp [fromDictValue], by simp only [Restored]⟩
  | .npFloat b, _, _, _ => ⟨.float b, by
      rw [saved_of (by simp only [toDictValue]; rfl)]; simp only [jsonRoundTrip], .float b, by simp [fromDictValue], .inl rfl⟩
  | .str b, _, _, _ => ⟨.str b, by
      rw [saved_of (by simp only [toDictValue]; rfl)]; simp only [jsonRoundTrip], .str b, by simp [fromDictValue], by simp only [Restored]⟩
  | .list l, old, hs, ⟨w, hw, hna⟩ => by
    refine ⟨.list l, by
      rw [saved_of (by simp only [toDictValue]; rfl)]; exact json_plain (.list l) hs, .list l, ?_, rfl⟩
    subst hw
    unfold fromDictValue
    cases w with
    | array s A => exact (hna s A rfl).elim
    | _ => rfl
  | .array s A, old, hs, ⟨s', A', hw⟩ => by
    obtain ⟨n, t, rfl⟩ : ∃ n t, s = n :: t := by
      cases s with
      | nil => exact (hs.1 rfl).elim
      | cons n t => exact ⟨n, t, rfl⟩
    refine ⟨toList _ A, by
      rw [saved_of (by simp only [toDictValue]; rfl)]; exact json_plain _ (plain_toList _ A), .array _ A, ?_, rfl⟩
    subst hw
    have := npArray_toList (n :: t) hs.2 A
    show fromDictValue (.list _) _ = _
    unfold fromDictValue
    have h2 : npArray (.list (PyList.ofList (List.ofFn fun i => toList t (A i)))) = .ok ⟨n :: t, A⟩ := this
    simp only [h2]
    rfl
  | .obj m c a, old, hs, ⟨b, hb, hc⟩ => by
    obtain ⟨h1, h2, h3, h4⟩ := hs
    have hc' : CompatibleAttrs a ((b.set "module" (.str m)).set "class" (.str c)) := by
      refine compatible_congr a b _ ?_ hc
      intro k hk
      have e4 : k ≠ "class" := fun e => h4 (e ▸ hk)
      have e3 : k ≠ "module" := fun e => h3 (e ▸ hk)
      rw [Attrs.get_set_of_ne _ e4, Attrs.get_set_of_ne _ e3]
    obtain ⟨xs, hx, _, o', ho, hr, _⟩ := attrs_restored a _ h1 h2 hc'
    obtain ⟨ws, hw1, hw2⟩ := mapM_saved (ws := .nil) hx
    refine ⟨.dict (.cons "module" (.str m) (.cons "class" (.str c) xs)), ?_, .obj m c o', ?_, ?_⟩
    · have e1 : recursiveToDictLoop false a (.cons "module" (.str m) (.cons "class" (.str c) .nil)) =
          .ok (.cons "module" (.str m) (.cons "class" (.str c) ws)) := by
        rw [toDictLoop_eq false a _ h2 ?_, hw1]
        · rfl
        · intro k hk
          simp only [Attrs.keys, List.mem_cons, List.not_mem_nil, or_false, not_or]
          exact ⟨fun e => h3 (e ▸ hk), fun e => h4 (e ▸ hk)⟩
      unfold saved
      simp only [toDictValue, recursiveToDict, e1]
      show jsonRoundTrip (.dict (.cons "module" (.str m) (.cons "class" (.str c) ws))) = _
      simp only [jsonRoundTrip, jsonRoundTripAttrs, hw2]
      rfl
    · subst hb
      simp only [fromDictValue, recursiveFromDict]
      show (do return PyVal.obj m c (← recursiveFromDict xs _)) = _
      rw [ho]
      rfl
    · exact ⟨o', rfl, hr⟩
  | .tuple _, _, h, _ => h.elim
  | .dict _, _, h, _ => h.elim
/-- All attributes of an object. -/
theorem attrs_restored : (a o : Attrs) → StorableAttrs a → a.keys.Nodup → CompatibleAttrs a o →
    ∃ xs, a.mapM saved = .ok xs ∧ xs.keys = a.keys ∧ ∃ o', recursiveFromDict xs o = .ok o' ∧ RestoredAttrs a o' ∧
      ∀ k, k ∉ a.keys → o'.get k = o.get k
  | .nil, o, _, _, _ => ⟨.nil, rfl, rfl, o, rfl, trivial, fun _ _ => rfl⟩
  | .cons k v rest, o, hs, hn, hc => by
    simp only [Attrs.keys, List.nodup_cons] at hn
    obtain ⟨x, hx, y, hy, hr⟩ := value_restored v (o.get k) hs.1 hc.1
    have hc2 : CompatibleAttrs rest (o.set k y) := by
      refine compatible_congr rest o _ ?_ hc.2
      intro z hz
      have e1 : z ≠ k := fun e => hn.1 (e ▸ hz)
      rw [Attrs.get_set_of_ne _ e1]
    obtain ⟨xs, hxs, hk, o', ho, hr2, hun⟩ := attrs_restored rest _ hs.2 hn.2 hc2
    refine ⟨.cons k x xs, ?_, by simp [Attrs.keys, hk], o', ?_, ⟨⟨y, ?_, hr⟩, hr2⟩, ?_⟩
    · simp only [Attrs.mapM, hx, hxs]; rfl
    · simp only [recursiveFromDict, hy]; exact ho
    · rw [hun k hn.1, Attrs.get_set_self]
    · intro z hz
      simp only [Attrs.keys, List.mem_cons, not_or] at hz
      rw [hun z hz.2, Attrs.get_set_of_ne _ hz.1]
end

end Verif
