import Verif.Spec.Lookup
import Verif.Lemmas.Output
import Verif.Props.Strings
/-! # Access to values: lookup, indexing, equality -/

namespace JustJson
open Spec

set_option linter.unusedSectionVars false

section
variable [Arch]

/-! ## C30 -/

theorem firstAt_zero {k : JsonString} {v : Value} {es : Object} {key : Str} (h : HasText k key) : FirstAt ((k, v) :: es) key 0 :=
  ⟨⟨_, rfl, h⟩, fun j hj => absurd hj (Nat.not_lt_zero j)⟩

theorem firstAt_succ {e : JsonString × Value} {es : Object} {key : Str} {i : Nat} (h : ¬ HasText e.1 key) :
    FirstAt (e :: es) key (i + 1) ↔ FirstAt es key i := by
  unfold FirstAt
  constructor
  · rintro ⟨h1, h2⟩
    refine ⟨h1, fun j hj e' he => h2 (j + 1) (by omega) e' he⟩
  · rintro ⟨h1, h2⟩
    refine ⟨h1, fun j hj e' he => ?_⟩
    cases j with
    | zero => injection he with he; rw [← he]; exact h
    | succ j => exact h2 j (by omega) e' he

theorem firstAt_unique {o : Object} {key : Str} {i j : Nat} (h1 : FirstAt o key i) (h2 : FirstAt o key j) : i = j := by
  obtain ⟨⟨e, he, ht⟩, hl⟩ := h1
  obtain ⟨⟨e', he', ht'⟩, hl'⟩ := h2
  rcases Nat.lt_trichotomy i j with h | h | h
  · exact absurd ht (hl' i h e he)
  · exact h
  · exact absurd ht' (hl j h e' he')

theorem lookup_cases {o : Object} {key : Str} (ho : ∀ e ∈ o, Obtainable e.1) :
    (NoKey o key ∧ o.get key = .ok none ∧ ∀ f, o.modifyEntry f key = .ok none)
    ∨ ∃ i e, FirstAt o key i ∧ o[i]? = some e ∧ o.get key = .ok (some e.2) ∧ ∀ f, o.modifyEntry f key = .ok (some (o.set i (f e))) := by
  induction o with
  | nil => exact .inl ⟨(fun e he => by cases he), rfl, fun f => rfl⟩
  | cons e es ih =>
    obtain ⟨k, v⟩ := e
    obtain ⟨b, hb, hbt⟩ := C19_eq_str k (ho (k, v) (by simp)) key
    cases b with
    | true =>
      refine .inr ⟨0, (k, v), firstAt_zero (hbt.mp rfl), rfl, ?_, ?_⟩
      · rw [Object.get, hb]; rfl
      · intro f; rw [Object.modifyEntry, hb]; rfl
    | false =>
      have hk : ¬ HasText k key := fun h => by cases hbt.mpr h
      rcases ih (fun e he => ho e (by simp [he])) with ⟨h1, h2, h3⟩ | ⟨i, e, h1, h2, h3, h4⟩
      · refine .inl ⟨?_, ?_, ?_⟩
        · intro e he
          rcases List.mem_cons.mp he with rfl | he
          · exact hk
          · exact h1 e he
        · rw [Object.get, hb]; exact h2
        · intro f
          rw [Object.modifyEntry, hb]
          show Res.bind (Object.modifyEntry f es key) (fun o => Res.ok (o.map ((k, v) :: ·))) = _
          rw [h3 f]
          rfl
      · refine .inr ⟨i + 1, e, (firstAt_succ hk).mpr h1, h2, ?_, ?_⟩
        · rw [Object.get, hb]; exact h3
        · intro f
          rw [Object.modifyEntry, hb]
          show Res.bind (Object.modifyEntry f es key) (fun o => Res.ok (o.map ((k, v) :: ·))) = _
          rw [h4 f]
          rfl

theorem firstAt_noKey {o : Object} {key : Str} {i : Nat} (h : FirstAt o key i) : ¬ NoKey o key := by
  obtain ⟨⟨e, h1, h2⟩, _⟩ := h
  exact fun hn => hn e (List.mem_of_getElem? h1) h2

theorem changedAt_set {α : Type} {xs : List α} {i : Nat} {x : α} (f : α → α) (h : xs[i]? = some x) : ChangedAt xs i f (xs.set i (f x)) := by
  have hi : i < xs.length := (List.getElem?_eq_some_iff.mp h).1
  refine ⟨hi, List.length_set, ?_, ?_⟩
  · intro y hy
    rw [h] at hy
    injection hy with hy
    rw [List.getElem?_set_self hi, hy]
  · intro j hj
    rw [List.getElem?_set_ne (fun h => hj h.symm)]

theorem changedAt_unique {α : Type} {xs ys zs : List α} {i : Nat} {f : α → α} (h1 : ChangedAt xs i f ys) (h2 : ChangedAt xs i f zs) : ys = zs := by
  apply List.ext_getElem?
  intro j
  by_cases hj : j = i
  · subst hj
    obtain ⟨x, hx⟩ : ∃ x, xs[j]? = some x := ⟨_, List.getElem?_eq_getElem h1.inside⟩
    rw [h1.at_i x hx, h2.at_i x hx]
  · rw [h1.elsewhere j hj, h2.elsewhere j hj]

/-- **C30.** `Object::get` never panics; it returns the value of the first entry whose key decodes to `key`, and `None` if
and only if there is no such entry. -/
theorem C30_get (o : Object) (ho : ∀ e ∈ o, Obtainable e.1) (key : Str) :
    ∃ r, o.get key = .ok r
      ∧ (∀ v, r = some v ↔ ∃ i k, FirstAt o key i ∧ o[i]? = some (k, v))
      ∧ (r = none ↔ NoKey o key) := by
  rcases lookup_cases ho with ⟨h1, h2, _⟩ | ⟨i, e, h1, h2, h3, _⟩
  · refine ⟨none, h2, fun v => ⟨(fun h => by cases h), ?_⟩, (fun _ => h1), fun _ => rfl⟩
    rintro ⟨i, k, h, _⟩
    exact absurd h1 (firstAt_noKey h)
  · refine ⟨some e.2, h3, fun v => ⟨?_, ?_⟩, (fun h => by cases h), fun h => absurd h (firstAt_noKey h1)⟩
    · intro h; injection h with h; exact ⟨i, e.1, h1, by rw [h2, ← h]⟩
    · rintro ⟨j, k, h, hj⟩
      rw [← firstAt_unique h1 h, h2] at hj
      injection hj with hj
      rw [hj]

/-- **C30.** `Object::get_entry_mut` addresses that same entry: a write through it changes the first entry whose key
decodes to `key`, and nothing else; it is `None` if and only if there is no such entry. -/
theorem C30_get_entry_mut (f : JsonString × Value → JsonString × Value) (o : Object) (ho : ∀ e ∈ o, Obtainable e.1) (key : Str) :
    ∃ r, o.modifyEntry f key = .ok r
      ∧ (∀ o', r = some o' ↔ ∃ i, FirstAt o key i ∧ ChangedAt o i f o')
      ∧ (r = none ↔ NoKey o key) := by
  rcases lookup_cases ho with ⟨h1, _, h2⟩ | ⟨i, e, h1, h2, _, h3⟩
  · refine ⟨none, h2 f, fun v => ⟨(fun h => by cases h), ?_⟩, (fun _ => h1), fun _ => rfl⟩
    rintro ⟨i, h, _⟩
    exact absurd h1 (firstAt_noKey h)
  · refine ⟨_, h3 f, fun o' => ⟨?_, ?_⟩, (fun h => by cases h), fun h => absurd h (firstAt_noKey h1)⟩
    · intro h; injection h with h; exact ⟨i, h1, h ▸ changedAt_set f h2⟩
    · rintro ⟨j, h, hj⟩
      rw [← firstAt_unique h1 h] at hj
      rw [changedAt_unique (changedAt_set f h2) hj]

/-- **C30.** `Object::get_mut` addresses the value of that entry: its key and all other entries stay. -/
theorem C30_get_mut (f : Value → Value) (o : Object) (ho : ∀ e ∈ o, Obtainable e.1) (key : Str) :
    ∃ r, o.modify f key = .ok r
      ∧ (∀ o', r = some o' ↔ ∃ i, FirstAt o key i ∧ ChangedAt o i (fun e => (e.1, f e.2)) o')
      ∧ (r = none ↔ NoKey o key) :=
  C30_get_entry_mut _ o ho key

/-- **C30.** What a write through `get_mut` does, as seen by `get`: `get` of that key now gives the value written, and
`get` of any other key gives what it gave before. -/
theorem C30_write_read (f : Value → Value) (o : Object) (ho : ∀ e ∈ o, Obtainable e.1) (key : Str) (o' : Object)
    (hw : o.modify f key = .ok (some o')) :
    (∃ v, o.get key = .ok (some v) ∧ o'.get key = .ok (some (f v)))
    ∧ (∀ key', key' ≠ key → o'.get key' = o.get key')
    ∧ o'.map (·.1) = o.map (·.1) := by
  rcases lookup_cases (key := key) ho with ⟨h1, _, h2⟩ | ⟨i, e, h1, h2, h3, h4⟩
  · rw [Object.modify, h2] at hw; cases hw
  rw [Object.modify, h4] at hw
  injection hw with hw
  injection hw with hw
  have hk : o'.map (·.1) = o.map (·.1) := by
    rw [← hw, List.map_set]
    apply List.ext_getElem?
    intro j
    by_cases hj : j = i
    · subst hj
      have hi : j < o.length := (List.getElem?_eq_some_iff.mp h2).1
      rw [List.getElem?_set_self (by simpa using hi), List.getElem?_map, h2]
      rfl
    · rw [List.getElem?_set_ne (fun h => hj h.symm)]
  have hkj : ∀ j : Nat, (o'[j]?).map (fun e : JsonString × Value => e.1) = (o[j]?).map (fun e : JsonString × Value => e.1) := by
    intro j
    rw [← List.getElem?_map, ← List.getElem?_map, hk]
  have hfirst : ∀ key' j, FirstAt o' key' j → FirstAt o key' j := by
    rintro key' j ⟨⟨e', he', ht⟩, hl⟩
    constructor
    · have := hkj j
      rw [he'] at this
      cases hoj : o[j]? with
      | none => rw [hoj] at this; cases this
      | some x =>
        rw [hoj] at this
        injection this with this
        exact ⟨x, rfl, (show e'.1 = x.1 from this) ▸ ht⟩
    · intro l hlj x hx
      have := hkj l
      rw [hx] at this
      cases hol : o'[l]? with
      | none => rw [hol] at this; cases this
      | some y =>
        rw [hol] at this
        injection this with this
        exact (show y.1 = x.1 from this) ▸ hl l hlj y hol
  have ho' : ∀ e ∈ o', Obtainable e.1 := by
    intro e he
    have : e.1 ∈ o'.map (·.1) := List.mem_map.mpr ⟨e, he, rfl⟩
    rw [hk] at this
    obtain ⟨x, hx, he⟩ := List.mem_map.mp this
    exact he ▸ ho x hx
  have hc := changedAt_set (fun e : JsonString × Value => (e.1, f e.2)) h2
  rw [hw] at hc
  have hne : ∀ key' j, FirstAt o key' j → ¬ NoKey o' key' := by
    rintro key' j ⟨⟨x, hx, ht⟩, _⟩ hn
    have := hkj j
    rw [hx] at this
    cases hoj : o'[j]? with
    | none => rw [hoj] at this; cases this
    | some y =>
      rw [hoj] at this
      injection this with this
      exact hn y (List.mem_of_getElem? hoj) ((show y.1 = x.1 from this).symm ▸ ht)
  refine ⟨⟨e.2, h3, ?_⟩, ?_, hk⟩
  · rcases lookup_cases (key := key) ho' with ⟨g1, _⟩ | ⟨i', e', g1, g2, g3, _⟩
    · exact absurd g1 (hne _ _ h1)
    · have := firstAt_unique h1 (hfirst _ _ g1)
      subst this
      rw [hc.at_i e h2] at g2
      injection g2 with g2
      rw [g3, ← g2]
  · intro key' hkey
    rcases lookup_cases (key := key') ho' with ⟨g1, g2, _⟩ | ⟨i', e', g1, g2, g3, _⟩
    · rcases lookup_cases (key := key') ho with ⟨_, k2, _⟩ | ⟨j, e', k1, _⟩
      · rw [g2, k2]
      · exact absurd g1 (hne _ _ k1)
    · rcases lookup_cases (key := key') ho with ⟨k1, _, _⟩ | ⟨j, x, k1, k2, k3, _⟩
      · exact absurd k1 (firstAt_noKey (hfirst _ _ g1))
      · have := firstAt_unique k1 (hfirst _ _ g1)
        subst this
        by_cases hj : j = i
        · subst hj
          obtain ⟨⟨y, hy, hyt⟩, _⟩ := h1
          obtain ⟨⟨z, hz, hzt⟩, _⟩ := k1
          rw [hy] at hz
          injection hz with hz
          subst hz
          exact absurd (HasText.unique hzt hyt) hkey
        · rw [hc.elsewhere j hj, k2] at g2
          injection g2 with g2
          rw [g3, k3, g2]

theorem built_keys {o : Object} (hv : Built (.object o)) : ∀ e ∈ o, Obtainable e.1 := by
  have key : ∀ {o : Object}, BuiltEntries o → ∀ e ∈ o, Obtainable e.1 := by
    intro o
    induction o with
    | nil => intro _ e he; cases he
    | cons x es ih =>
      intro h e he
      cases h with
      | cons k v es hk _ hes =>
        rcases List.mem_cons.mp he with rfl | he
        · exact hk
        · exact ih hes e he
  cases hv with
  | object _ h => exact key h

/-- **C30.** `Value::get`: as `Object::get` if the value is an object, `None` if it is not. -/
theorem C30_value_get (v : Value) (hv : Built v) (key : Str) :
    ∃ r, v.get key = .ok r
      ∧ ∀ w, r = some w ↔ ∃ o i k, v = .object o ∧ FirstAt o key i ∧ o[i]? = some (k, w) := by
  cases v with
  | object o =>
    obtain ⟨r, h1, h2, _⟩ := C30_get o (built_keys hv) key
    refine ⟨r, h1, fun w => (h2 w).trans ⟨?_, ?_⟩⟩
    · rintro ⟨i, k, h⟩; exact ⟨o, i, k, rfl, h⟩
    · rintro ⟨o', i, k, h, h'⟩; injection h with h; subst h; exact ⟨i, k, h'⟩
  | _ => exact ⟨none, rfl, fun w => ⟨(fun h => by cases h), (fun ⟨o, i, k, h, _⟩ => by cases h)⟩⟩

/-- **C30.** `Value::get_mut`: a write through it changes the value of that entry, and nothing else; `None` if the value
is not an object or has no such entry. -/
theorem C30_value_get_mut (f : Value → Value) (v : Value) (hv : Built v) (key : Str) :
    ∃ r, v.modify f key = .ok r
      ∧ ∀ v', r = some v' ↔ ∃ o i o', v = .object o ∧ FirstAt o key i ∧ ChangedAt o i (fun e => (e.1, f e.2)) o' ∧ v' = .object o' := by
  cases v with
  | object o =>
    obtain ⟨r, h1, h2, _⟩ := C30_get_mut f o (built_keys hv) key
    refine ⟨r.map .object, ?_, fun v' => ?_⟩
    · show Res.bind (Object.modify f o key) (fun r => Res.ok (r.map Value.object)) = _
      rw [h1]; rfl
    rw [Option.map_eq_some_iff]
    constructor
    · rintro ⟨o', h, rfl⟩
      obtain ⟨i, h3, h4⟩ := (h2 o').mp h
      exact ⟨o, i, o', rfl, h3, h4, rfl⟩
    · rintro ⟨p, i, o', h, h3, h4, rfl⟩
      injection h with h
      subst h
      exact ⟨o', (h2 o').mpr ⟨i, h3, h4⟩, rfl⟩
  | _ => exact ⟨none, rfl, fun w => ⟨(fun h => by cases h), (fun ⟨o, i, k, h, _⟩ => by cases h)⟩⟩

/-! ## C41 -/

/-- **C41.** Each accessor is `Some` exactly for its variant, and then gives the content; `is_null` is true exactly for
`null`. -/
theorem C41_accessors (v : Value) :
    (∀ o, v.asObject = some o ↔ v = .object o)
    ∧ (∀ a, v.asArray = some a ↔ v = .array a)
    ∧ (∀ s, v.asString = some s ↔ v = .string s)
    ∧ (∀ x, v.asNumber = some x ↔ v = .number x)
    ∧ (∀ b, v.asBool = some b ↔ v = .boolean b)
    ∧ (v.isNull = true ↔ v = .null) := by
  cases v <;> simp [Value.asObject, Value.asArray, Value.asString, Value.asNumber, Value.asBool, Value.isNull, eq_comm]

/-- **C41.** `as_object_mut` and `as_array_mut` are `Some` exactly for their variant, and what is written through them is
the new content. -/
theorem C41_accessors_mut (v v' : Value) (f : Object → Object) (g : List Value → List Value) :
    (v.modifyObject f = some v' ↔ ∃ o, v = .object o ∧ v' = .object (f o))
    ∧ (v.modifyArray g = some v' ↔ ∃ a, v = .array a ∧ v' = .array (g a)) := by
  cases v <;> simp [Value.modifyObject, Value.modifyArray, eq_comm]

/-- **C41.** `as_str` is `None` for a value that is no string; if it is `Some`, it is the decoded text of the string. (For
which strings it is `Some`: `C39_string_views`.) -/
theorem C41_as_str (v : Value) (hv : Built v) (t : Str) (h : v.asStr = some t) : ∃ s, v = .string s ∧ HasText s t := by
  cases v with
  | string s =>
    refine ⟨s, rfl, ?_⟩
    cases hv with
    | string _ hs =>
      obtain ⟨t', ht⟩ := obtainable_shape hs
      rcases (C39_string_views s hs t' ht.decoded).1 with h1 | ⟨h1, _⟩
      · rw [show s.asStr = some t from h] at h1
        injection h1 with h1
        rw [h1]; exact ht.decoded
      · rw [show s.asStr = some t from h] at h1; cases h1
  | _ => cases h

/-- **C41.** `get_index(i)` is the element number `i` if the value is an array that has one, `None` otherwise. -/
theorem C41_get_index (v w : Value) (i : Nat) : v.getIndex i = some w ↔ ∃ a, v = .array a ∧ a[i]? = some w := by
  cases v <;> simp [Value.getIndex, Value.asArray]

/-- **C41.** `get_index_mut(i)` is `Some` exactly if `get_index(i)` is, and a write through it changes that element and
nothing else. -/
theorem C41_get_index_mut (f : Value → Value) (v v' : Value) (i : Nat) :
    (v.modifyIndex f i = some v' ↔ ∃ a a', v = .array a ∧ ChangedAt a i f a' ∧ v' = .array a')
    ∧ (v.modifyIndex f i = none ↔ v.getIndex i = none) := by
  cases v with
  | array a =>
    constructor
    · by_cases hi : i < a.length
      · have hx := List.getElem?_eq_getElem hi
        have hc : ChangedAt a i f (a.modify i f) := by
          refine ⟨hi, by simp, ?_, ?_⟩
          · intro x hx; rw [List.getElem?_modify_eq, hx]; rfl
          · intro j hj; rw [List.getElem?_modify_ne _ _ (Ne.symm hj)]
        show (if i < a.length then some (Value.array (a.modify i f)) else none) = some v' ↔ _
        rw [if_pos hi]
        constructor
        · intro h; injection h with h; exact ⟨a, _, rfl, hc, h.symm⟩
        · rintro ⟨b, a', h, h2, rfl⟩
          injection h with h
          subst h
          rw [changedAt_unique hc h2]
      · show (if i < a.length then some (Value.array (a.modify i f)) else none) = some v' ↔ _
        rw [if_neg hi]
        refine ⟨(fun h => by cases h), ?_⟩
        rintro ⟨b, a', h, h2, rfl⟩
        injection h with h
        subst h
        exact absurd h2.inside hi
    · show (if i < a.length then some (Value.array (a.modify i f)) else none) = none ↔ a[i]? = none
      rw [List.getElem?_eq_none_iff]
      split
      · exact ⟨(fun h => by cases h), (fun h => by omega)⟩
      · exact ⟨(fun _ => by omega), fun _ => rfl⟩
  | _ => exact ⟨⟨(fun h => by cases h), (fun ⟨a, a', h, _⟩ => by cases h)⟩, ⟨fun _ => rfl, fun _ => rfl⟩⟩

/-- **C41.** `value[i]`, read or written, panics exactly if `get_index(i)` is `None`, and else is what `get_index`
and `get_index_mut` give. -/
theorem C41_index (f : Value → Value) (v : Value) (i : Nat) :
    ((∃ p, v.index i = .panic p) ↔ v.getIndex i = none)
    ∧ (∀ w, v.index i = .ok w ↔ v.getIndex i = some w)
    ∧ ((∃ p, v.indexMut f i = .panic p) ↔ v.getIndex i = none)
    ∧ (∀ w, v.indexMut f i = .ok w ↔ v.modifyIndex f i = some w) := by
  rw [← (C41_get_index_mut f v v i).2]
  unfold Value.index Value.indexMut
  have h := (C41_get_index_mut f v v i).2
  cases h1 : v.getIndex i <;> cases h2 : v.modifyIndex f i <;> simp_all [Res.orPanic]

/-- **C41.** `value[key]`, read or written, panics exactly if `get(key)` is `None`, and else is what `get` and `get_mut`
give. -/
theorem C41_index_key (f : Value → Value) (v : Value) (hv : Built v) (key : Str) :
    ((∃ p, v.indexKey key = .panic p) ↔ v.get key = .ok none)
    ∧ (∀ w, v.indexKey key = .ok w ↔ v.get key = .ok (some w))
    ∧ ((∃ p, v.indexKeyMut f key = .panic p) ↔ v.get key = .ok none)
    ∧ (∀ w, v.indexKeyMut f key = .ok w ↔ v.modify f key = .ok (some w)) := by
  obtain ⟨r, h1, h2⟩ := C30_value_get v hv key
  obtain ⟨r', h3, h4⟩ := C30_value_get_mut f v hv key
  have hn : r = none ↔ r' = none := by
    constructor
    · intro h
      cases r' with
      | none => rfl
      | some v' =>
        obtain ⟨o, i, o', e1, e2, e3, _⟩ := (h4 v').mp rfl
        obtain ⟨⟨k, w⟩, he⟩ : ∃ x, o[i]? = some x := ⟨_, List.getElem?_eq_getElem e3.inside⟩
        rw [(h2 w).mpr ⟨o, i, k, e1, e2, he⟩] at h
        cases h
    · intro h
      cases r with
      | none => rfl
      | some w =>
        obtain ⟨o, i, k, e1, e2, e3⟩ := (h2 w).mp rfl
        rw [(h4 _).mpr ⟨o, i, _, e1, e2, changedAt_set _ e3, rfl⟩] at h
        cases h
  have e1 : v.indexKey key = Res.orPanic .expect r := by
    show Res.bind (v.get key) _ = _; rw [h1]; rfl
  have e2 : v.indexKeyMut f key = Res.orPanic .expect r' := by
    show Res.bind (v.modify f key) _ = _; rw [h3]; rfl
  rw [e1, e2, h1, h3]
  cases r <;> cases r' <;> simp_all [Res.orPanic]

/-! ## C44 -/

theorem SameText.symm {s t : JsonString} (h : SameText s t) : SameText t s := by
  obtain ⟨x, h1, h2⟩ := h; exact ⟨x, h2, h1⟩

theorem SameText.trans {s t u : JsonString} (h : SameText s t) (h' : SameText t u) : SameText s u := by
  obtain ⟨x, h1, h2⟩ := h
  obtain ⟨y, h3, h4⟩ := h'
  rw [HasText.unique h3 h2] at h4
  exact ⟨x, h1, h4⟩

theorem obtainable_same {s : JsonString} (h : Obtainable s) : SameText s s := by
  obtain ⟨t, ht⟩ := obtainable_shape h
  exact ⟨t, ht.decoded, ht.decoded⟩

/-- `==` of the strings is total and `E` -/
def EqIs (E : JsonString → JsonString → Bool) (s t : JsonString) : Prop := s.eq t = .ok (E s t)

mutual
/-- `Value::eq` with `E` for the strings -/
def eqBy (E : JsonString → JsonString → Bool) : Value → Value → Bool
  | .number a, .number b => a.eq b
  | .string a, .string b => E a b
  | .boolean a, .boolean b => a == b
  | .object a, .object b => eqEntries E a b
  | .array a, .array b => eqElems E a b
  | .null, .null => true
  | _, _ => false
/-- elements -/
def eqElems (E : JsonString → JsonString → Bool) : List Value → List Value → Bool
  | [], [] => true
  | a :: as, b :: bs => eqBy E a b && eqElems E as bs
  | _, _ => false
/-- entries -/
def eqEntries (E : JsonString → JsonString → Bool) : Object → Object → Bool
  | [], [] => true
  | (k, a) :: as, (l, b) :: bs => E k l && (eqBy E a b && eqEntries E as bs)
  | _, _ => false
end

theorem eqElems_length {E : JsonString → JsonString → Bool} : ∀ {vs ws : List Value}, vs.length ≠ ws.length → eqElems E vs ws = false
  | [], [], h => absurd rfl h
  | [], _ :: _, _ => by rw [eqElems] <;> simp
  | _ :: _, [], _ => by rw [eqElems] <;> simp
  | v :: vs, w :: ws, h => by
    rw [eqElems, eqElems_length (vs := vs) (ws := ws) (fun e => h (by simp [e])), Bool.and_false]

theorem eqEntries_length {E : JsonString → JsonString → Bool} : ∀ {vs ws : Object}, vs.length ≠ ws.length → eqEntries E vs ws = false
  | [], [], h => absurd rfl h
  | [], _ :: _, _ => by rw [eqEntries] <;> simp
  | _ :: _, [], _ => by rw [eqEntries] <;> simp
  | (k, v) :: vs, (l, w) :: ws, h => by
    rw [eqEntries, eqEntries_length (vs := vs) (ws := ws) (fun e => h (by simp [e])), Bool.and_false, Bool.and_false]

theorem eq_eqBy (E : JsonString → JsonString → Bool) :
    (∀ v w : Value, (∀ s ∈ v.strings, ∀ t ∈ w.strings, EqIs E s t) → v.eq w = .ok (eqBy E v w))
    ∧ (∀ es fs : Object, es.length = fs.length → (∀ s ∈ Value.stringsEntries es, ∀ t ∈ Value.stringsEntries fs, EqIs E s t) →
        Object.eqAux es fs = .ok (eqEntries E es fs))
    ∧ ∀ vs ws : List Value, vs.length = ws.length → (∀ s ∈ Value.stringsElems vs, ∀ t ∈ Value.stringsElems ws, EqIs E s t) →
        Value.eqAux vs ws = .ok (eqElems E vs ws) := by
  apply Value.induct
  · intro w h; cases w <;> simp [Value.eq, eqBy]
  · intro b w h; cases w <;> simp [Value.eq, eqBy]
  · intro n w h; cases w <;> simp [Value.eq, eqBy]
  · intro s w h
    cases w with
    | string t => rw [Value.eq, eqBy]; exact h s (by simp [Value.strings]) t (by simp [Value.strings])
    | _ => simp [Value.eq, eqBy]
  · intro es ih w h
    cases w with
    | object fs =>
      rw [Value.eq, eqBy]
      by_cases hl : es.length = fs.length
      · rw [if_pos hl, ih fs hl (by simpa [Value.strings] using h)]
      · rw [if_neg hl, eqEntries_length hl]
    | _ => simp [Value.eq, eqBy]
  · intro es ih w h
    cases w with
    | array fs =>
      rw [Value.eq, eqBy]
      by_cases hl : es.length = fs.length
      · rw [if_pos hl, ih fs hl (by simpa [Value.strings] using h)]
      · rw [if_neg hl, eqElems_length hl]
    | _ => simp [Value.eq, eqBy]
  · intro fs hl _
    cases fs with
    | nil => rw [Object.eqAux, eqEntries]; intro k a as k' b bs h; cases h
    | cons f fs => cases hl
  · intro k v es h1 h2 fs hl h
    cases fs with
    | nil => cases hl
    | cons f fs =>
      obtain ⟨l, w⟩ := f
      rw [Value.stringsEntries, Value.stringsEntries] at h
      rw [Object.eqAux, eqEntries, show k.eq l = .ok (E k l) from h k (by simp) l (by simp)]
      cases E k l with
      | false => rfl
      | true =>
        simp only [Bool.true_and]
        rw [h1 w (fun s hs t ht => h s (by simp [hs]) t (by simp [ht]))]
        cases eqBy E v w with
        | false => rfl
        | true =>
          simp only [Bool.true_and]
          exact h2 fs (by simpa using hl) (fun s hs t ht => h s (by simp [hs]) t (by simp [ht]))
  · intro fs hl _
    cases fs with
    | nil => rw [Value.eqAux, eqElems]; intro a as b bs h; cases h
    | cons f fs => cases hl
  · intro v es h1 h2 fs hl h
    cases fs with
    | nil => cases hl
    | cons w fs =>
      rw [Value.stringsElems, Value.stringsElems] at h
      rw [Value.eqAux, eqElems, h1 w (fun s hs t ht => h s (by simp [hs]) t (by simp [ht]))]
      cases eqBy E v w with
      | false => rfl
      | true =>
        simp only [Bool.true_and]
        exact h2 fs (by simpa using hl) (fun s hs t ht => h s (by simp [hs]) t (by simp [ht]))

theorem eqBy_same (E : JsonString → JsonString → Bool) :
    (∀ v w : Value, (∀ s ∈ v.strings, ∀ t ∈ w.strings, E s t = true → SameText s t) → eqBy E v w = true → SameContent v w)
    ∧ (∀ es fs : Object, (∀ s ∈ Value.stringsEntries es, ∀ t ∈ Value.stringsEntries fs, E s t = true → SameText s t) →
        eqEntries E es fs = true → SameEntries es fs)
    ∧ ∀ vs ws : List Value, (∀ s ∈ Value.stringsElems vs, ∀ t ∈ Value.stringsElems ws, E s t = true → SameText s t) →
        eqElems E vs ws = true → SameElems vs ws := by
  apply Value.induct
  · intro w _ h; cases w <;> first | exact .null | (simp [eqBy] at h)
  · intro b w _ h
    cases w with
    | boolean c => have : b = c := by simpa [eqBy] using h
                   subst this; exact .boolean b
    | _ => simp [eqBy] at h
  · intro x w _ h
    cases w with
    | number y => exact .number x y (by simpa [eqBy, JsonNumber.eq, AnyStr.eq, JsonNumber.sourceStr] using h)
    | _ => simp [eqBy] at h
  · intro s w hs h
    cases w with
    | string t => exact .string s t (hs s (by simp [Value.strings]) t (by simp [Value.strings]) (by simpa [eqBy] using h))
    | _ => simp [eqBy] at h
  · intro es ih w hs h
    cases w with
    | object fs => exact .object _ _ (ih fs (by simpa [Value.strings] using hs) (by simpa [eqBy] using h))
    | _ => simp [eqBy] at h
  · intro es ih w hs h
    cases w with
    | array fs => exact .array _ _ (ih fs (by simpa [Value.strings] using hs) (by simpa [eqBy] using h))
    | _ => simp [eqBy] at h
  · intro fs _ h
    cases fs with
    | nil => exact .nil
    | cons f fs => simp [eqEntries] at h
  · intro k v es h1 h2 fs hs h
    cases fs with
    | nil => simp [eqEntries] at h
    | cons f fs =>
      obtain ⟨l, w⟩ := f
      rw [Value.stringsEntries, Value.stringsEntries] at hs
      rw [eqEntries, Bool.and_eq_true, Bool.and_eq_true] at h
      exact .cons _ _ _ _ _ _ (hs k (by simp) l (by simp) h.1) (h1 w (fun s hs' t ht => hs s (by simp [hs']) t (by simp [ht])) h.2.1)
        (h2 fs (fun s hs' t ht => hs s (by simp [hs']) t (by simp [ht])) h.2.2)
  · intro fs _ h
    cases fs with
    | nil => exact .nil
    | cons f fs => simp [eqElems] at h
  · intro v es h1 h2 fs hs h
    cases fs with
    | nil => simp [eqElems] at h
    | cons w fs =>
      rw [Value.stringsElems, Value.stringsElems] at hs
      rw [eqElems, Bool.and_eq_true] at h
      exact .cons _ _ _ _ (h1 w (fun s hs' t ht => hs s (by simp [hs']) t (by simp [ht])) h.1)
        (h2 fs (fun s hs' t ht => hs s (by simp [hs']) t (by simp [ht])) h.2)

theorem same_eqBy {E : JsonString → JsonString → Bool} {v w : Value} (h : SameContent v w) :
    (∀ s ∈ v.strings, ∀ t ∈ w.strings, SameText s t → E s t = true) → eqBy E v w = true := by
  refine SameContent.rec
    (motive_1 := fun v w _ => (∀ s ∈ v.strings, ∀ t ∈ w.strings, SameText s t → E s t = true) → eqBy E v w = true)
    (motive_2 := fun v w _ => (∀ s ∈ Value.stringsElems v, ∀ t ∈ Value.stringsElems w, SameText s t → E s t = true) → eqElems E v w = true)
    (motive_3 := fun v w _ => (∀ s ∈ Value.stringsEntries v, ∀ t ∈ Value.stringsEntries w, SameText s t → E s t = true) → eqEntries E v w = true)
    ?_ ?_ ?_ ?_ ?_ ?_ ?_ ?_ ?_ ?_ h
  · intro _; rfl
  · intro b _; simp [eqBy]
  · intro x y h _; simpa [eqBy, JsonNumber.eq, AnyStr.eq, JsonNumber.sourceStr] using h
  · intro s t h hs; rw [eqBy]; exact hs s (by simp [Value.strings]) t (by simp [Value.strings]) h
  · intro vs ws _ ih hs; rw [eqBy]; exact ih (by simpa [Value.strings] using hs)
  · intro vs ws _ ih hs; rw [eqBy]; exact ih (by simpa [Value.strings] using hs)
  · intro _; rfl
  · intro v w vs ws _ _ h1 h2 hs
    rw [Value.stringsElems, Value.stringsElems] at hs
    rw [eqElems, h1 (fun s hs' t ht => hs s (by simp [hs']) t (by simp [ht])), h2 (fun s hs' t ht => hs s (by simp [hs']) t (by simp [ht]))]
    rfl
  · intro _; rfl
  · intro k l v w vs ws hk _ _ h1 h2 hs
    rw [Value.stringsEntries, Value.stringsEntries] at hs
    rw [eqEntries, hs k (by simp) l (by simp) hk, h1 (fun s hs' t ht => hs s (by simp [hs']) t (by simp [ht])),
      h2 (fun s hs' t ht => hs s (by simp [hs']) t (by simp [ht]))]
    rfl

theorem same_refl : (∀ v : Value, (∀ s ∈ v.strings, SameText s s) → SameContent v v)
    ∧ (∀ es : Object, (∀ s ∈ Value.stringsEntries es, SameText s s) → SameEntries es es)
    ∧ ∀ vs : List Value, (∀ s ∈ Value.stringsElems vs, SameText s s) → SameElems vs vs := by
  apply Value.induct
  · intro _; exact .null
  · intro b _; exact .boolean b
  · intro x _; exact .number x x rfl
  · intro s h; exact .string s s (h s (by simp [Value.strings]))
  · intro es ih h; exact .object _ _ (ih (by simpa [Value.strings] using h))
  · intro es ih h; exact .array _ _ (ih (by simpa [Value.strings] using h))
  · intro _; exact .nil
  · intro k v es h1 h2 h
    rw [Value.stringsEntries] at h
    exact .cons _ _ _ _ _ _ (h k (by simp)) (h1 fun s hs => h s (by simp [hs])) (h2 fun s hs => h s (by simp [hs]))
  · intro _; exact .nil
  · intro v es h1 h2 h
    rw [Value.stringsElems] at h
    exact .cons _ _ _ _ (h1 fun s hs => h s (by simp [hs])) (h2 fun s hs => h s (by simp [hs]))

theorem same_symm {v w : Value} (h : SameContent v w) : SameContent w v := by
  refine SameContent.rec (motive_1 := fun v w _ => SameContent w v) (motive_2 := fun v w _ => SameElems w v)
    (motive_3 := fun v w _ => SameEntries w v) ?_ ?_ ?_ ?_ ?_ ?_ ?_ ?_ ?_ ?_ h
  · exact .null
  · exact .boolean
  · intro x y h; exact .number y x h.symm
  · intro s t h; exact .string t s h.symm
  · intro vs ws _ h; exact .array _ _ h
  · intro vs ws _ h; exact .object _ _ h
  · exact .nil
  · intro v w vs ws _ _ h1 h2; exact .cons _ _ _ _ h1 h2
  · exact .nil
  · intro k l v w vs ws hk _ _ h1 h2; exact .cons _ _ _ _ _ _ hk.symm h1 h2

theorem same_trans {u v : Value} (h : SameContent u v) : ∀ {w}, SameContent v w → SameContent u w := by
  refine SameContent.rec (motive_1 := fun u v _ => ∀ {w}, SameContent v w → SameContent u w)
    (motive_2 := fun u v _ => ∀ {w}, SameElems v w → SameElems u w)
    (motive_3 := fun u v _ => ∀ {w}, SameEntries v w → SameEntries u w) ?_ ?_ ?_ ?_ ?_ ?_ ?_ ?_ ?_ ?_ h
  · intro w h; exact h
  · intro b w h; exact h
  · intro x y h w h'; cases h' with | number _ z h' => exact .number x z (h.trans h')
  · intro x y h w h'; cases h' with | string _ z h' => exact .string x z (h.trans h')
  · intro x y _ h w h'; cases h' with | array _ z h' => exact .array x z (h h')
  · intro x y _ h w h'; cases h' with | object _ z h' => exact .object x z (h h')
  · intro w h; exact h
  · intro v w vs ws _ _ h1 h2 x h'; cases h' with | cons _ z _ zs h3 h4 => exact .cons _ _ _ _ (h1 h3) (h2 h4)
  · intro w h; exact h
  · intro k l v w vs ws hk _ _ h1 h2 x h'; cases h' with | cons _ m _ z _ zs h0 h3 h4 => exact .cons _ _ _ _ _ _ (hk.trans h0) (h1 h3) (h2 h4)

theorem eqBy_refl (E : JsonString → JsonString → Bool) : (∀ v : Value, (∀ s ∈ v.strings, E s s = true) → eqBy E v v = true)
    ∧ (∀ es : Object, (∀ s ∈ Value.stringsEntries es, E s s = true) → eqEntries E es es = true)
    ∧ ∀ vs : List Value, (∀ s ∈ Value.stringsElems vs, E s s = true) → eqElems E vs vs = true := by
  apply Value.induct
  · intro _; rfl
  · intro b _; simp [eqBy]
  · intro x _; simp [eqBy, JsonNumber.eq, AnyStr.eq]
  · intro s h; rw [eqBy]; exact h s (by simp [Value.strings])
  · intro es ih h; rw [eqBy]; exact ih (by simpa [Value.strings] using h)
  · intro es ih h; rw [eqBy]; exact ih (by simpa [Value.strings] using h)
  · intro _; rfl
  · intro k v es h1 h2 h
    rw [Value.stringsEntries] at h
    rw [eqEntries, h k (by simp), h1 fun s hs => h s (by simp [hs]), h2 fun s hs => h s (by simp [hs])]
    rfl
  · intro _; rfl
  · intro v es h1 h2 h
    rw [Value.stringsElems] at h
    rw [eqElems, h1 fun s hs => h s (by simp [hs]), h2 fun s hs => h s (by simp [hs])]
    rfl

theorem eqBy_symm (E : JsonString → JsonString → Bool) :
    (∀ v w : Value, (∀ s ∈ v.strings, ∀ t ∈ w.strings, E s t = E t s) → eqBy E v w = eqBy E w v)
    ∧ (∀ es fs : Object, (∀ s ∈ Value.stringsEntries es, ∀ t ∈ Value.stringsEntries fs, E s t = E t s) →
        eqEntries E es fs = eqEntries E fs es)
    ∧ ∀ vs ws : List Value, (∀ s ∈ Value.stringsElems vs, ∀ t ∈ Value.stringsElems ws, E s t = E t s) →
        eqElems E vs ws = eqElems E ws vs := by
  apply Value.induct
  · intro w _; cases w <;> simp [eqBy]
  · intro b w _
    cases w with
    | boolean c => simp only [eqBy]; cases b <;> cases c <;> rfl
    | _ => simp [eqBy]
  · intro x w _
    cases w with
    | number y => simp only [eqBy, JsonNumber.eq, AnyStr.eq]; exact BEq.comm
    | _ => simp [eqBy]
  · intro s w hs
    cases w with
    | string t => rw [eqBy, eqBy]; exact hs s (by simp [Value.strings]) t (by simp [Value.strings])
    | _ => simp [eqBy]
  · intro es ih w hs
    cases w with
    | object fs => rw [eqBy, eqBy]; exact ih fs (by simpa [Value.strings] using hs)
    | _ => simp [eqBy]
  · intro es ih w hs
    cases w with
    | array fs => rw [eqBy, eqBy]; exact ih fs (by simpa [Value.strings] using hs)
    | _ => simp [eqBy]
  · intro fs _
    cases fs <;> simp [eqEntries]
  · intro k v es h1 h2 fs hs
    cases fs with
    | nil => simp [eqEntries]
    | cons f fs =>
      obtain ⟨l, w⟩ := f
      rw [Value.stringsEntries, Value.stringsEntries] at hs
      rw [eqEntries, eqEntries, hs k (by simp) l (by simp), h1 w (fun s hs' t ht => hs s (by simp [hs']) t (by simp [ht])),
        h2 fs (fun s hs' t ht => hs s (by simp [hs']) t (by simp [ht]))]
  · intro fs _
    cases fs <;> simp [eqElems]
  · intro v es h1 h2 fs hs
    cases fs with
    | nil => simp [eqElems]
    | cons w fs =>
      rw [Value.stringsElems, Value.stringsElems] at hs
      rw [eqElems, eqElems, h1 w (fun s hs' t ht => hs s (by simp [hs']) t (by simp [ht])),
        h2 fs (fun s hs' t ht => hs s (by simp [hs']) t (by simp [ht]))]

/-- a value all of whose strings were parsed from JSON: parsed values, their parts, and what is put together from them -/
def ParsedParts (v : Value) : Prop := ∀ s ∈ v.strings, Parsed s

theorem parsed_value_parts {g : Bool} {src : List UInt8} {cfg : ParseConfig} {v : Value} (hi : Input g src)
    (h : Value.parseWithConfig g src cfg = .ok v) : ParsedParts v :=
  fun s hs => .inValue g src cfg v s hi h hs

/-- what `==` gives -/
def eqOf (s t : JsonString) : Bool := match s.eq t with | .ok b => b | .panic _ => false

theorem eqOf_parsed {s t : JsonString} (hs : Parsed s) (ht : Parsed t) : EqIs eqOf s t ∧ (eqOf s t = true ↔ SameText s t) := by
  obtain ⟨x, h1⟩ := obtainable_shape (.parsed s hs)
  obtain ⟨y, h2⟩ := obtainable_shape (.parsed t ht)
  have h := C20_eq_parsed s t x y hs ht h1.decoded h2.decoded
  have e : eqOf s t = decide (x = y) := by unfold eqOf; rw [h]
  refine ⟨by unfold EqIs; rw [h, e], ?_⟩
  rw [e, decide_eq_true_iff]
  constructor
  · intro h; subst h; exact ⟨x, h1.decoded, h2.decoded⟩
  · rintro ⟨z, h3, h4⟩; rw [HasText.unique h1.decoded h3, HasText.unique h2.decoded h4]

/-- **C44.** `==` of values whose strings were all parsed never panics, and is true if and only if they have the same
content. -/
theorem C44_eq_parsed (v w : Value) (hv : ParsedParts v) (hw : ParsedParts w) :
    ∃ b, v.eq w = .ok b ∧ (b = true ↔ SameContent v w) := by
  refine ⟨_, (eq_eqBy eqOf).1 v w (fun s hs t ht => (eqOf_parsed (hv s hs) (hw t ht)).1), ?_, ?_⟩
  · exact (eqBy_same eqOf).1 v w (fun s hs t ht => (eqOf_parsed (hv s hs) (hw t ht)).2.mp)
  · exact fun h => same_eqBy h (fun s hs t ht => (eqOf_parsed (hv s hs) (hw t ht)).2.mpr)

/-- **C44.** In particular for the values of two parsed texts, whatever the entry points and configs. -/
theorem C44_eq_of_texts (g g' : Bool) (src src' : List UInt8) (cfg cfg' : ParseConfig) (v w : Value) (hi : Input g src) (hi' : Input g' src')
    (h : Value.parseWithConfig g src cfg = .ok v) (h' : Value.parseWithConfig g' src' cfg' = .ok w) :
    ∃ b, v.eq w = .ok b ∧ (b = true ↔ SameContent v w) :=
  C44_eq_parsed v w (parsed_value_parts hi h) (parsed_value_parts hi' h')

/-- **C44.** `==` is an equivalence relation on them. -/
theorem C44_equivalence (u v w : Value) (hu : ParsedParts u) (hv : ParsedParts v) (hw : ParsedParts w) :
    u.eq u = .ok true ∧ u.eq v = v.eq u ∧ (u.eq v = .ok true → v.eq w = .ok true → u.eq w = .ok true) := by
  have key : ∀ {v w : Value}, ParsedParts v → ParsedParts w → (v.eq w = .ok true ↔ SameContent v w) := by
    intro v w hv hw
    obtain ⟨b, h1, h2⟩ := C44_eq_parsed v w hv hw
    rw [h1, ← h2]
    exact ⟨(fun h => by injection h), fun h => by rw [h]⟩
  refine ⟨(key hu hu).mpr (same_refl.1 u fun s hs => obtainable_same (.parsed s (hu s hs))), ?_, ?_⟩
  · obtain ⟨b, h1, h2⟩ := C44_eq_parsed u v hu hv
    obtain ⟨c, h3, h4⟩ := C44_eq_parsed v u hv hu
    rw [h1, h3]
    congr 1
    rw [Bool.eq_iff_iff, h2, h4]
    exact ⟨same_symm, same_symm⟩
  · intro h1 h2
    exact (key hu hw).mpr (same_trans ((key hu hv).mp h1) ((key hv hw).mp h2))

theorem eqOf_obtainable {s t : JsonString} (hs : Obtainable s) (ht : Obtainable t) : EqIs eqOf s t ∧ (eqOf s t = true → SameText s t) := by
  obtain ⟨x, h1⟩ := obtainable_shape hs
  obtain ⟨y, h2⟩ := obtainable_shape ht
  obtain ⟨b, hb⟩ : ∃ b, s.eq t = .ok b := ⟨_, h1.eq h2⟩
  have e : eqOf s t = b := by unfold eqOf; rw [hb]
  refine ⟨by unfold EqIs; rw [hb, e], ?_⟩
  intro h
  rw [e] at h
  subst h
  have := (C20_eq_sound s t hs ht).1 hb
  exact ⟨x, h1.decoded, this.symm.trans h1.decoded⟩

/-- **C44.** For all values a client can build: `==` never panics, is reflexive and symmetric, and equal values have the
same content. (The converse, and transitivity, fail as they do for strings: `C20_refuted`, `C20_not_transitive`.) -/
theorem C44_eq_built (v w : Value) (hv : Built v) (hw : Built w) :
    (∃ b, v.eq w = .ok b) ∧ (v.eq w = .ok true → SameContent v w) ∧ v.eq v = .ok true ∧ v.eq w = w.eq v := by
  have hs := (built_strings hv).1
  have ht := (built_strings hw).1
  have e1 := (eq_eqBy eqOf).1 v w (fun s h t h' => (eqOf_obtainable (hs s h) (ht t h')).1)
  have e2 := (eq_eqBy eqOf).1 w v (fun s h t h' => (eqOf_obtainable (ht s h) (hs t h')).1)
  have e3 := (eq_eqBy eqOf).1 v v (fun s h t h' => (eqOf_obtainable (hs s h) (hs t h')).1)
  refine ⟨⟨_, e1⟩, ?_, ?_, ?_⟩
  · intro h
    rw [e1] at h
    injection h with h
    exact (eqBy_same eqOf).1 v w (fun s h t h' => (eqOf_obtainable (hs s h) (ht t h')).2) h
  · rw [e3]
    congr 1
    exact (eqBy_refl eqOf).1 v (fun s h => by unfold eqOf; rw [(C20_eq_sound s s (hs s h) (hs s h)).2.1])
  · rw [e1, e2]
    congr 1
    exact (eqBy_symm eqOf).1 v w (fun s h t h' => by unfold eqOf; rw [(C20_eq_sound s t (hs s h) (ht t h')).2.2])

end

/-! ## Concrete cases -/

section
attribute [local instance] arch64

/-- a key spelled with an escape, the same key again, and another one -/
def lookEx : List UInt8 := b8 "{\"\\u0061\":[1,2],\"a\":3,\"b\":null}"

theorem lookEx_input : Input true lookEx := input_str (by unfold SliceFits; decide +kernel)

/-- the value it is parsed to, as an object -/
def lookObj : Object :=
  [(⟨.json (.borrowed "\\u0061".toList), .new true 1⟩, .array [.number ⟨.borrowed ['1']⟩, .number ⟨.borrowed ['2']⟩]),
   (⟨.json (.borrowed ['a']), .new false 1⟩, .number ⟨.borrowed ['3']⟩),
   (⟨.json (.borrowed ['b']), .new false 1⟩, .null)]

theorem lookObj_parsed : Value.parseWithConfig true lookEx .new = .ok (.object lookObj) := value_same (by decide +kernel)

theorem lookObj_keys : ∀ e ∈ lookObj, Obtainable e.1 := by
  intro e he
  refine .parsed _ (.inValue true lookEx .new _ _ lookEx_input lookObj_parsed ?_)
  simp only [lookObj, List.mem_cons, List.not_mem_nil, or_false] at he
  rcases he with rfl | rfl | rfl <;> simp [lookObj, Value.strings, Value.stringsEntries, Value.stringsElems]

-- C30: the first of the entries with that key, by decoded text; a write changes that one
example : (lookObj.get ['a']).value?.map (·.map Value.toJson) = some (some (.ok "[1,2]".toList)) := by decide +kernel
example : FirstAt lookObj ['a'] 0 := firstAt_zero (show JsonString.decoded _ = _ by decide +kernel)
example : (lookObj.get ['c']).value?.map (·.map Value.toJson) = some none := by decide +kernel
example : (Object.modify (fun _ => .boolean true) lookObj ['a']).value?.map (·.map fun o => (Value.object o).toJson)
    = some (some (.ok "{\"\\u0061\":true,\"a\":3,\"b\":null}".toList)) := by decide +kernel
example : ∃ r, lookObj.get ['b'] = .ok r ∧ (r = none ↔ NoKey lookObj ['b']) := by
  obtain ⟨r, h1, _, h2⟩ := C30_get lookObj lookObj_keys ['b']
  exact ⟨r, h1, h2⟩

-- C41
example : (Value.array [.null, .boolean true]).index 1 = .ok (.boolean true) := rfl
example : (Value.array [.null, .boolean true]).index 2 = .panic .expect := rfl
example : ((Value.object lookObj).indexKey ['c']).value?.isNone = true := by decide +kernel
example : (Value.array [.null, .null]).modifyIndex (fun _ => .boolean true) 1 = some (.array [.null, .boolean true]) := rfl

-- C44: equal in spite of other spelling; numbers are compared by their source
theorem lookParts : ParsedParts (.object lookObj) := parsed_value_parts lookEx_input lookObj_parsed
example : (Value.parseWithConfig true (b8 "{\"a\":[1 ,2],\"\\u0061\":3,\"b\":null}") .new).value?.map (Value.object lookObj).eq
    = some (.ok true) := by decide +kernel
example : (Value.parseWithConfig true (b8 "{\"a\":[1.0,2],\"a\":3,\"b\":null}") .new).value?.map (Value.object lookObj).eq
    = some (.ok false) := by decide +kernel

end

/-! ## Instances: each theorem above applied to a concrete case that meets its hypotheses -/
section Instances
attribute [local instance] arch64

theorem digit_built (c : Char) (b : UInt8) (hb : 0x31 ≤ b.toNat ∧ b.toNat ≤ 0x39) (h : utf8 [c] = [b]) : Built (.number ⟨.borrowed [c]⟩) := by
  refine .number _ ⟨⟨false, [b], none, none⟩, ⟨⟨⟨by simp, ?_⟩, ?_⟩, by simp, by simp⟩, ?_⟩
  · intro x hx
    rw [List.mem_singleton] at hx
    subst hx
    unfold IsDigit
    omega
  · simp
  · unfold NumDenotes
    exact h
theorem lookObj_built : Built (.object lookObj) :=
  .object _ (.cons _ _ _ (lookObj_keys lookObj[0] (List.getElem_mem _)) (.array _ (.cons _ _ (digit_built '1' 0x31 (by decide) (by decide +kernel))
      (.cons _ _ (digit_built '2' 0x32 (by decide) (by decide +kernel)) .nil)))
    (.cons _ _ _ (lookObj_keys lookObj[1] (List.getElem_mem _)) (digit_built '3' 0x33 (by decide) (by decide +kernel))
      (.cons _ _ _ (lookObj_keys lookObj[2] (List.getElem_mem _)) .null .nil)))
theorem lookObj_written : ∃ o', Object.modify (fun _ => .boolean true) lookObj ['a'] = .ok (some o') := by
  have key : ∀ r : Res (Option Object), r.value?.map Option.isSome = some true → ∃ o', r = .ok (some o') := by
    intro r h
    cases r with
    | panic p => cases h
    | ok o => cases o with
      | none => cases h
      | some o' => exact ⟨o', rfl⟩
  exact key _ (by decide +kernel)
example := C30_get lookObj lookObj_keys ['a']
example := C30_get_entry_mut (fun e => (e.1, .null)) lookObj lookObj_keys ['a']
example := C30_get_mut (fun _ => .null) lookObj lookObj_keys ['b']
example := C30_write_read (fun _ => .boolean true) lookObj lookObj_keys ['a'] _ lookObj_written.choose_spec
example := C30_value_get (.object lookObj) lookObj_built ['a']
example := C30_value_get_mut (fun _ => .null) (.object lookObj) lookObj_built ['a']
example := C41_accessors (.object lookObj)
example := C41_accessors_mut (.object lookObj) (.object []) (fun _ => []) id
example := C41_as_str (.string ⟨.json (.borrowed ['a']), .new false 1⟩) (.string _ (.fromStr ['a'] _ (by lit) (by decide +kernel))) ['a'] (by decide +kernel)
example := C41_get_index (.array [.null, .boolean true]) (.boolean true) 1
example := C41_get_index_mut (fun _ => .null) (.array [.null, .boolean true]) (.array [.null, .null]) 1
example := C41_index (fun _ => .null) (.array [.null, .boolean true]) 2
example := C41_index_key (fun _ => .null) (.object lookObj) lookObj_built ['c']
example := C44_eq_parsed (.object lookObj) (.object lookObj) lookParts lookParts
example := C44_eq_of_texts true true lookEx exSrc .new .new _ _ lookEx_input (exSrc_input _) lookObj_parsed (exSrc_parses _)
example := C44_equivalence (.object lookObj) (.object lookObj) .null lookParts lookParts (fun s hs => by cases hs)
example := C44_eq_built (.object lookObj) (.object lookObj) lookObj_built lookObj_built

end Instances
end JustJson
