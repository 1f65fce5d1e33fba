import Verif.Lemmas.Io

/-! # C52: saved objects are restored (any class) -/

namespace Verif
open Spec

namespace Attrs

theorem without_nil (a : Attrs) : without [] a = a := by
  match a with
  | .nil => rfl
  | .cons k v rest => simp [without, without_nil rest]

theorem keys_without (names : List String) (a : Attrs) : (without names a).keys = a.keys.filter (· ∉ names) := by
  match a with
  | .nil => rfl
  | .cons k v rest =>
    by_cases h : k ∈ names
    · simp [without, h, keys, keys_without names rest]
    · simp [without, h, keys, keys_without names rest]

theorem without_of_not_mem (x : String) (a : Attrs) (h : x ∉ a.keys) (names : List String) :
    without (x :: names) a = without names a := by
  match a with
  | .nil => rfl
  | .cons k v rest =>
    simp only [keys, List.mem_cons, not_or] at h
    have : ¬ k = x := fun e => h.1 e.symm
    simp [without, this, without_of_not_mem x rest h.2]

theorem without_cons (x : String) (names : List String) (a : Attrs) (hn : a.keys.Nodup) :
    without (x :: names) a = without names (a.erase x) := by
  match a with
  | .nil => rfl
  | .cons k v rest =>
    simp only [keys, List.nodup_cons] at hn
    by_cases h : k = x
    · subst h
      simp only [without, List.mem_cons, true_or, if_true, erase]
      exact without_of_not_mem _ _ hn.1 _
    · simp only [without, List.mem_cons, h, false_or, erase, if_false]
      rw [without_cons x names rest hn.2]

theorem keys_erase (a : Attrs) (x : String) : (a.erase x).keys = a.keys.erase x := by
  match a with
  | .nil => rfl
  | .cons k v rest =>
    by_cases h : k = x
    · simp [erase, h, keys]
    · simp [erase, h, keys, keys_erase rest, List.erase_cons_tail]

theorem mapM_without (names : List String) (f : PyVal → Except PyErr PyVal) : {a xs : Attrs} → a.mapM f = .ok xs →
    (without names a).mapM f = .ok (without names xs)
  | .nil, xs, h => by
    have : xs = .nil := by injection h with h; exact h.symm
    subst this; rfl
  | .cons k v rest, xs, h => by
    simp only [Attrs.mapM] at h
    cases hv : f v with
    | error e => rw [hv] at h; cases h
    | ok w =>
      cases hr : rest.mapM f with
      | error e => rw [hv, hr] at h; cases h
      | ok r =>
        rw [hv, hr] at h
        have : xs = .cons k w r := by injection h with h; exact h.symm
        subst this
        have ih := mapM_without names f hr
        by_cases hk : k ∈ names
        · simp [without, hk, ih]
        · simp only [without, hk, if_false, Attrs.mapM, hv, ih]
          rfl

theorem mapM_keys (f : PyVal → Except PyErr PyVal) : {a xs : Attrs} → a.mapM f = .ok xs → xs.keys = a.keys
  | .nil, xs, h => by
    have : xs = .nil := by injection h with h; exact h.symm
    subst this; rfl
  | .cons k v rest, xs, h => by
    simp only [Attrs.mapM] at h
    cases hv : f v with
    | error e => rw [hv] at h; cases h
    | ok w =>
      cases hr : rest.mapM f with
      | error e => rw [hv, hr] at h; cases h
      | ok r =>
        rw [hv, hr] at h
        have : xs = .cons k w r := by injection h with h; exact h.symm
        subst this
        simp [keys, mapM_keys f hr]

theorem mapM_get (f : PyVal → Except PyErr PyVal) : {a xs : Attrs} → a.mapM f = .ok xs → ∀ k v, a.get k = some v →
    ∃ w, f v = .ok w ∧ xs.get k = some w
  | .nil, xs, h => by intro k v hk; simp [Attrs.get] at hk
  | .cons x u rest, xs, h => by
    intro k v hk
    simp only [Attrs.mapM] at h
    cases hv : f u with
    | error e => rw [hv] at h; cases h
    | ok w =>
      cases hr : rest.mapM f with
      | error e => rw [hv, hr] at h; cases h
      | ok r =>
        rw [hv, hr] at h
        have : xs = .cons x w r := by injection h with h; exact h.symm
        subst this
        by_cases hx : x = k
        · simp only [Attrs.get, hx, if_true, Option.some.injEq] at hk ⊢
          subst hk
          exact ⟨w, hv, rfl⟩
        · simp only [Attrs.get, hx, if_false] at hk ⊢
          exact mapM_get f hr k v hk

end Attrs

theorem popArgs_fst (args : List String) : ∀ (xs kw : Attrs), xs.keys.Nodup → (popArgs args xs kw).1 = without args xs := by
  induction args with
  | nil => intro xs kw _; simp [popArgs, Attrs.without_nil]
  | cons arg args ih =>
    intro xs kw hn
    unfold popArgs
    cases h : xs.get arg with
    | none =>
      simp only []
      rw [ih xs kw hn, Attrs.without_of_not_mem _ _ ((Attrs.get_none_iff _ _).1 h)]
    | some v =>
      simp only []
      rw [ih _ _ (by rw [Attrs.keys_erase]; exact hn.erase _), Attrs.without_cons _ _ _ hn]

theorem popArgs_snd (args : List String) : ∀ (xs kw : Attrs), xs.keys.Nodup → (∀ k, kw.get k ≠ none → xs.get k = none) →
    ∀ k, (popArgs args xs kw).2.get k = if k ∈ args then (xs.get k).or (kw.get k) else kw.get k := by
  induction args with
  | nil => intro xs kw _ _ k; simp [popArgs]
  | cons arg args ih =>
    intro xs kw hn hd k
    unfold popArgs
    cases h : xs.get arg with
    | none =>
      simp only []
      rw [ih xs kw hn hd]
      by_cases hk : k = arg
      · subst hk
        simp [h]
      · simp [hk]
    | some v =>
      simp only []
      have herase : (xs.erase arg).get arg = none := by
        rw [Attrs.get_none_iff, Attrs.keys_erase]
        exact hn.not_mem_erase
      rw [ih _ _ (by rw [Attrs.keys_erase]; exact hn.erase _) (by
        intro x hx
        by_cases e : x = arg
        · subst e; exact herase
        · rw [Attrs.get_set_of_ne _ e] at hx
          rw [Attrs.get_erase_of_ne _ e]
          exact hd x hx)]
      by_cases hk : k = arg
      · subst hk
        rw [herase, Attrs.get_set_self]
        simp [h]
      · rw [Attrs.get_erase_of_ne _ hk, Attrs.get_set_of_ne _ hk]
        simp [hk]

theorem saved_obj {m c : String} {a xs : Attrs} (h2 : a.keys.Nodup) (h3 : "module" ∉ a.keys) (h4 : "class" ∉ a.keys)
    (hx : a.mapM saved = .ok xs) : ∃ w, recursiveToDict false (.obj m c a) = .ok w ∧
      jsonRoundTrip w = .ok (.dict (.cons "module" (.str m) (.cons "class" (.str c) xs))) := by
  obtain ⟨ws, hw1, hw2⟩ := mapM_saved (ws := .nil) hx
  have e1 : recursiveToDictLoop false a (.cons "module" (.str m) (.cons "class" (.str c) .nil)) =
      .ok (.cons "module" (.str m) (.cons "class" (.str c) ws)) := by
    rw [toDictLoop_eq false a _ h2 ?_, hw1]
    · rfl
    · intro k hk
      simp only [Attrs.keys, List.mem_cons, List.not_mem_nil, or_false, not_or]
      exact ⟨fun e => h3 (e ▸ hk), fun e => h4 (e ▸ hk)⟩
  refine ⟨.dict (.cons "module" (.str m) (.cons "class" (.str c) ws)), ?_, ?_⟩
  · simp only [recursiveToDict, e1]; rfl
  · simp only [jsonRoundTrip, jsonRoundTripAttrs, hw2]; rfl

mutual
theorem storable_saved : (v : PyVal) → Storable v → ∃ x, saved v = .ok x
  | .none, _ => ⟨_, by rw [saved_of (by simp only [toDictValue]; rfl)]; simp only [jsonRoundTrip]; rfl⟩
  | .bool _, _ => ⟨_, by rw [saved_of (by simp only [toDictValue]; rfl)]; simp only [jsonRoundTrip]; rfl⟩
  | .int _, _ => ⟨_, by rw [saved_of (by simp only [toDictValue]; rfl)]; simp only [jsonRoundTrip]; rfl⟩
  | .float _, _ => ⟨_, by rw [saved_of (by simp only [toDictValue]; rfl)]; simp only [jsonRoundTrip]; rfl⟩
  | .npFloat _, _ => ⟨_, by rw [saved_of (by simp only [toDictValue]; rfl)]; simp only [jsonRoundTrip]; rfl⟩
  | .str _, _ => ⟨_, by rw [saved_of (by simp only [toDictValue]; rfl)]; simp only [jsonRoundTrip]; rfl⟩
  | .list l, h => ⟨_, by rw [saved_of (by simp only [toDictValue]; rfl)]; exact json_plain (.list l) h⟩
  | .array s A, h => ⟨_, by rw [saved_of (by simp only [toDictValue]; rfl)]; exact json_plain _ (plain_toList _ A)⟩
  | .obj m c a, ⟨h1, h2, h3, h4⟩ => by
    obtain ⟨xs, hx⟩ := storable_savedAttrs a h1
    obtain ⟨w, hw, hj⟩ := saved_obj (m := m) (c := c) h2 h3 h4 hx
    exact ⟨_, (saved_of (w := w) (by simp only [toDictValue]; exact hw)).trans hj⟩
  | .tuple _, h => h.elim
  | .dict _, h => h.elim
theorem storable_savedAttrs : (a : Attrs) → StorableAttrs a → ∃ xs, a.mapM saved = .ok xs
  | .nil, _ => ⟨_, rfl⟩
  | .cons k v rest, h => by
    obtain ⟨x, hx⟩ := storable_saved v h.1
    obtain ⟨xs, hxs⟩ := storable_savedAttrs rest h.2
    exact ⟨_, by simp only [Attrs.mapM, hx, hxs]; rfl⟩
end

theorem saved_form : (v : PyVal) → Storable v → ¬ IsObj v → saved v = .ok (jsonForm v)
  | .none, _, _ => by rw [saved_of (by simp only [toDictValue]; rfl)]; simp only [jsonRoundTrip, jsonForm]
  | .bool _, _, _ => by rw [saved_of (by simp only [toDictValue]; rfl)]; simp only [jsonRoundTrip, jsonForm]
  | .int _, _, _ => by rw [saved_of (by simp only [toDictValue]; rfl)]; simp only [jsonRoundTrip, jsonForm]
  | .float _, _, _ => by rw [saved_of (by simp only [toDictValue]; rfl)]; simp only [jsonRoundTrip, jsonForm]
  | .npFloat _, _, _ => by rw [saved_of (by simp only [toDictValue]; rfl)]; simp only [jsonRoundTrip, jsonForm]
  | .str _, _, _ => by rw [saved_of (by simp only [toDictValue]; rfl)]; simp only [jsonRoundTrip, jsonForm]
  | .list l, h, _ => by rw [saved_of (by simp only [toDictValue]; rfl)]; exact json_plain (.list l) h
  | .array s A, h, _ => by
    rw [saved_of (by simp only [toDictValue]; rfl)]; exact json_plain _ (plain_toList _ A)
  | .obj m c a, _, h => (h trivial).elim
  | .tuple _, h, _ => h.elim
  | .dict _, h, _ => h.elim

theorem storableAttrs_get : {a : Attrs} → StorableAttrs a → ∀ k v, a.get k = some v → Storable v
  | .nil, _, k, v, h => by simp [Attrs.get] at h
  | .cons x u rest, hs, k, v, h => by
    by_cases hx : x = k
    · simp only [Attrs.get, hx, if_true, Option.some.injEq] at h
      exact h ▸ hs.1
    · simp only [Attrs.get, hx, if_false] at h
      exact storableAttrs_get hs.2 k v h

theorem storable_without (names : List String) : (a : Attrs) → StorableAttrs a → StorableAttrs (without names a)
  | .nil, _ => trivial
  | .cons k v rest, h => by
    by_cases hk : k ∈ names
    · simp only [without, hk, if_true]; exact storable_without names rest h.2
    · simp only [without, hk, if_false]; exact ⟨h.1, storable_without names rest h.2⟩

theorem restored_of_split (names : List String) (o' : Attrs) : (a : Attrs) → a.keys.Nodup →
    RestoredAttrs (without names a) o' →
    (∀ k ∈ names, ∀ v, a.get k = some v → ∃ v', o'.get k = some v' ∧ Restored v v') → RestoredAttrs a o'
  | .nil, _, _, _ => trivial
  | .cons k v rest, hn, h1, h2 => by
    simp only [Attrs.keys, List.nodup_cons] at hn
    have hrest : ∀ x ∈ names, ∀ w, rest.get x = some w → ∃ v', o'.get x = some v' ∧ Restored w v' := by
      intro x hx w hw
      refine h2 x hx w ?_
      have : k ≠ x := by
        rintro rfl
        rw [(Attrs.get_none_iff _ _).2 hn.1] at hw
        cases hw
      simp only [Attrs.get, this, if_false]
      exact hw
    by_cases hk : k ∈ names
    · simp only [without, hk, if_true] at h1
      refine ⟨h2 k hk v (by simp [Attrs.get]), restored_of_split names o' rest hn.2 h1 hrest⟩
    · simp only [without, hk, if_false] at h1
      exact ⟨h1.1, restored_of_split names o' rest hn.2 h1.2 hrest⟩

/-- **C52** (any class). Let `obj` be an object whose attributes are numbers, strings, lists, arrays and such objects.
If the constructor accepts the saved form of those attributes that are its parameters, sets them to equal values
(`hargs`), and creates for the others attributes of the right kind (`hcompat`), then `read_json` after `write_json`
returns an object of the same class with equal attributes; attributes that the original did not have are as the
constructor made them. -/
theorem C52_json_round_trip (reg : Registry) {m c : String} {a : Attrs} (hs : Storable (.obj m c a))
    {cd : String → Option PyClass} {clazz : PyClass} (hm : reg m = some cd) (hc : cd c = some clazz) {fresh : Attrs}
    (hnobj : ∀ k ∈ clazz.args, ∀ v, a.get k = some v → ¬ IsObj v)
    (hctor : ∀ kwargs : Attrs, (∀ k, kwargs.get k = if k ∈ clazz.args then (a.get k).map jsonForm else none) →
      clazz.construct kwargs = .ok fresh)
    (hargs : ∀ k ∈ clazz.args, ∀ v, a.get k = some v → ∃ v', fresh.get k = some v' ∧ Restored v v')
    (hcompat : CompatibleAttrs (without clazz.args a) fresh) :
    ∃ a', jsonSaveAndLoad reg (.obj m c a) = .ok (.obj m c a') ∧ RestoredAttrs a a' ∧
      ∀ k, a.get k = none → a'.get k = fresh.get k := by
  obtain ⟨h1, h2, h3, h4⟩ := hs
  obtain ⟨xs, hx⟩ := storable_savedAttrs a h1
  have hxk : xs.keys = a.keys := Attrs.mapM_keys saved hx
  have hxn : xs.keys.Nodup := hxk ▸ h2
  obtain ⟨w, hw, hj⟩ := saved_obj (m := m) (c := c) h2 h3 h4 hx
  obtain ⟨ys, hy, _, o', ho, hr, hun⟩ := attrs_restored (without clazz.args a) fresh (storable_without _ a h1)
    (by rw [Attrs.keys_without]; exact h2.filter _) hcompat
  have hyx : ys = without clazz.args xs := by
    have := Attrs.mapM_without clazz.args saved hx
    rw [hy] at this
    injection this
  have hkw : clazz.construct (popArgs clazz.args xs .nil).2 = .ok fresh := by
    apply hctor
    intro k
    rw [popArgs_snd clazz.args xs .nil hxn (by intro k hk; simp [Attrs.get] at hk) k]
    by_cases hk : k ∈ clazz.args
    · simp only [hk, if_true, Attrs.get, Option.or_none]
      cases hg : a.get k with
      | none =>
        rw [Option.map_none, Attrs.get_none_iff, hxk]
        exact (Attrs.get_none_iff _ _).1 hg
      | some v =>
        obtain ⟨x, hx1, hx2⟩ := Attrs.mapM_get saved hx k v hg
        rw [hx2, Option.map_some]
        rw [saved_form v (storableAttrs_get h1 k v hg) (hnobj k hk v hg)] at hx1
        injection hx1 with hx1
        rw [hx1]
    · simp [hk, Attrs.get]
  refine ⟨o', ?_, ?_, ?_⟩
  · unfold jsonSaveAndLoad
    rw [hw]
    show (do
      let text ← jsonRoundTrip w
      match text with
      | .dict kv => dictToObject reg kv
      | _ => .error .attributeError) = _
    rw [hj]
    show dictToObject reg (.cons "module" (.str m) (.cons "class" (.str c) xs)) = _
    unfold dictToObject
    simp only [Attrs.get, if_true, hm, Attrs.erase, hc]
    have hpop : popArgs clazz.args xs .nil = (ys, (popArgs clazz.args xs .nil).2) := by
      rw [hyx, ← popArgs_fst clazz.args xs .nil hxn]
    rw [hpop]
    simp only [hkw]
    show (do return PyVal.obj m c (← recursiveFromDict ys fresh)) = _
    rw [ho]
    rfl
  · refine restored_of_split clazz.args o' a h2 hr ?_
    intro k hk v hv
    obtain ⟨v', hv1, hv2⟩ := hargs k hk v hv
    refine ⟨v', ?_, hv2⟩
    rw [hun k, hv1]
    rw [Attrs.keys_without]
    simp [hk]
  · intro k hk
    refine hun k ?_
    rw [Attrs.keys_without, List.mem_filter]
    rintro ⟨h, _⟩
    exact (Attrs.get_none_iff _ _).1 hk h

end Verif
