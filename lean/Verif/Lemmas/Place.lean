import Verif.Props.Compose
import Verif.Lemmas.Layout
import Verif.Spec.Place
/-! # Places in texts -/

namespace JustJson
open Spec

set_option linter.unusedSectionVars false

section
variable [Arch] {tc : Bool}

theorem elems_at {body : List UInt8} {js : List Json} (h : GElems tc body js) : ∀ {i : Nat} {j : Json}, js[i]? = some j →
    ∃ pre b post, body = pre ++ b ++ post ∧ GValue tc b j
      ∧ ∀ b' j', Text tc b' j' → GElems tc (pre ++ b' ++ post) (js.set i j') := by
  intro i j hi
  match h with
  | .one w b w' j0 hw hb hw' =>
    cases i with
    | succ i => simp at hi
    | zero =>
      simp at hi; subst hi
      refine ⟨w, b, w', rfl, hb, ?_⟩
      rintro b' j' ⟨v, c, v', hv, hc, hv', rfl⟩
      have := GElems.one (tc := tc) (w ++ v) c (v' ++ w') j' (ws_append hw hv) hc (ws_append hv' hw')
      simpa using this
  | .trailing w b w' w'' j0 ht hw hb hw' hw'' =>
    cases i with
    | succ i => simp at hi
    | zero =>
      simp at hi; subst hi
      refine ⟨w, b, w' ++ 0x2C :: w'', by simp, hb, ?_⟩
      rintro b' j' ⟨v, c, v', hv, hc, hv', rfl⟩
      have := GElems.trailing (tc := tc) (w ++ v) c (v' ++ w') w'' j' ht (ws_append hw hv) hc (ws_append hv' hw') hw''
      simpa using this
  | .cons w b w' rest j0 js hw hb hw' hr =>
    cases i with
    | zero =>
      simp at hi; subst hi
      refine ⟨w, b, w' ++ 0x2C :: rest, by simp, hb, ?_⟩
      rintro b' j' ⟨v, c, v', hv, hc, hv', rfl⟩
      have := GElems.cons (tc := tc) (w ++ v) c (v' ++ w') rest j' js (ws_append hw hv) hc (ws_append hv' hw') hr
      simpa using this
    | succ i =>
      obtain ⟨pre, c, post, e, hc, hs⟩ := elems_at hr (i := i) (j := j) (by simpa using hi)
      refine ⟨w ++ b ++ w' ++ 0x2C :: pre, c, post, by rw [e]; simp, hc, ?_⟩
      intro b' j' ht
      have := GElems.cons (tc := tc) w b w' _ j0 _ hw hb hw' (hs b' j' ht)
      simpa using this

theorem members_at {body : List UInt8} {ms : List (List Item × Json)} (h : GMembers tc body ms) :
    ∀ {i : Nat} {k : List Item} {j : Json}, ms[i]? = some (k, j) →
    ∃ pre kb mid b post, body = pre ++ kb ++ mid ++ b ++ post ∧ kb = strBytes k ∧ ItemsValid k ∧ GValue tc b j
      ∧ ∀ kb' k' b' j', Text tc kb' (.str k') → Text tc b' j' →
        GMembers tc (pre ++ kb' ++ mid ++ b' ++ post) (ms.set i (k', j')) := by
  intro i k j hi
  match h with
  | .one w w1 w2 b w' k0 j0 hw hk hw1 hw2 hb hw' =>
    cases i with
    | succ i => simp at hi
    | zero =>
      simp at hi; obtain ⟨rfl, rfl⟩ := hi
      refine ⟨w, _, w1 ++ 0x3A :: w2, b, w', by simp, rfl, hk, hb, ?_⟩
      rintro kb' k' b' j' hkt ⟨v, c, v', hv, hc, hv', rfl⟩
      obtain ⟨x, x', hx, hx', hk', rfl⟩ := text_str hkt
      have := GMembers.one (tc := tc) (w ++ x) (x' ++ w1) (w2 ++ v) c (v' ++ w') k' j' (ws_append hw hx) hk'
        (ws_append hx' hw1) (ws_append hw2 hv) hc (ws_append hv' hw')
      simpa using this
  | .trailing w w1 w2 b w' w'' k0 j0 ht hw hk hw1 hw2 hb hw' hw'' =>
    cases i with
    | succ i => simp at hi
    | zero =>
      simp at hi; obtain ⟨rfl, rfl⟩ := hi
      refine ⟨w, _, w1 ++ 0x3A :: w2, b, w' ++ 0x2C :: w'', by simp, rfl, hk, hb, ?_⟩
      rintro kb' k' b' j' hkt ⟨v, c, v', hv, hc, hv', rfl⟩
      obtain ⟨x, x', hx, hx', hk', rfl⟩ := text_str hkt
      have := GMembers.trailing (tc := tc) (w ++ x) (x' ++ w1) (w2 ++ v) c (v' ++ w') w'' k' j' ht (ws_append hw hx) hk'
        (ws_append hx' hw1) (ws_append hw2 hv) hc (ws_append hv' hw') hw''
      simpa using this
  | .cons w w1 w2 b w' rest k0 j0 ms hw hk hw1 hw2 hb hw' hr =>
    cases i with
    | zero =>
      simp at hi; obtain ⟨rfl, rfl⟩ := hi
      refine ⟨w, _, w1 ++ 0x3A :: w2, b, w' ++ 0x2C :: rest, by simp, rfl, hk, hb, ?_⟩
      rintro kb' k' b' j' hkt ⟨v, c, v', hv, hc, hv', rfl⟩
      obtain ⟨x, x', hx, hx', hk', rfl⟩ := text_str hkt
      have := GMembers.cons (tc := tc) (w ++ x) (x' ++ w1) (w2 ++ v) c (v' ++ w') rest k' j' ms (ws_append hw hx) hk'
        (ws_append hx' hw1) (ws_append hw2 hv) hc (ws_append hv' hw') hr
      simpa using this
    | succ i =>
      obtain ⟨pre, kb, mid, c, post, e, e', hkv, hc, hs⟩ := members_at hr (i := i) (k := k) (j := j) (by simpa using hi)
      refine ⟨w ++ strBytes k0 ++ w1 ++ 0x3A :: (w2 ++ b ++ w' ++ 0x2C :: pre), kb, mid, c, post, by rw [e]; simp, e', hkv, hc, ?_⟩
      intro kb' k' b' j' hkt ht
      have := GMembers.cons (tc := tc) w w1 w2 b w' _ k0 j0 _ hw hk hw1 hw2 hb hw' (hs kb' k' b' j' hkt ht)
      simpa using this

theorem blank_iff (x : UInt8) : x ∉ [0x20, 0x09, 0x0A, 0x0D] ↔ isBlank x = false := by
  rw [← Bool.not_eq_true, isBlank_iff]; simp

theorem tight_value {b : List UInt8} {j : Json} (h : GValue tc b j) : Tight b := by
  cases h with
  | null => exact ⟨_, _, rfl, rfl, by decide, by decide⟩
  | true => exact ⟨_, _, rfl, rfl, by decide, by decide⟩
  | false => exact ⟨_, _, rfl, rfl, by decide, by decide⟩
  | num n hn =>
    have hp := num_plain hn
    have hne : n.bytes ≠ [] := by
      intro h0
      have := congrArg List.length h0
      have h1 := hn.1.1.1
      cases hm : n.int with
      | nil => exact h1 hm
      | cons a l => rw [NumLit.bytes, hm] at this; simp at this
    refine ⟨n.bytes.head hne, n.bytes.getLast hne, List.head?_eq_some_head hne, List.getLast?_eq_some_getLast hne,
      (blank_iff _).mpr (hp _ (List.head_mem hne)).1, (blank_iff _).mpr (hp _ (List.getLast_mem hne)).1⟩
  | str s hs => exact ⟨0x22, 0x22, rfl, by rw [strBytes, ← List.cons_append]; exact List.getLast?_concat, by decide, by decide⟩
  | emptyArr w hw => exact ⟨0x5B, 0x5D, rfl, by rw [← List.cons_append]; exact List.getLast?_concat, by decide, by decide⟩
  | arr w hw => exact ⟨0x5B, 0x5D, rfl, by rw [← List.cons_append]; exact List.getLast?_concat, by decide, by decide⟩
  | emptyObj w hw => exact ⟨0x7B, 0x7D, rfl, by rw [← List.cons_append]; exact List.getLast?_concat, by decide, by decide⟩
  | obj w hw => exact ⟨0x7B, 0x7D, rfl, by rw [← List.cons_append]; exact List.getLast?_concat, by decide, by decide⟩

theorem set_entry (ms : List (List Item × Json)) {i : Nat} {k : List Item} {j : Json} (h1 : ms[i]? = some (k, j)) (u : Json) :
    (ms.set i (k, u)).map (fun m => (canonStr m.1, ofJson m.2))
      = (ms.map fun m => (canonStr m.1, ofJson m.2)).modify i fun e => (e.1, ofJson u) := by
  rw [List.map_set]
  apply List.ext_getElem?
  intro n
  rw [List.getElem?_set, List.getElem?_modify, List.getElem?_map]
  by_cases hn : i = n
  · subst hn
    have : i < ms.length := (List.getElem?_eq_some_iff.mp h1).1
    simp [this]
    have h2 := (List.getElem?_eq_some_iff.mp h1).2
    rw [h2]
  · simp [hn]

/-- One step down. -/
theorem value_at {b : List UInt8} {j : Json} (h : GValue tc b j) {i : Nat} {u : Value} (hu : nth i (ofJson j) = some u) :
    ∃ pre c post jc, b = pre ++ c ++ post ∧ GValue tc c jc ∧ u = ofJson jc
      ∧ ∀ c' jc', Text tc c' jc' → ∃ j', GValue tc (pre ++ c' ++ post) j' ∧ ofJson j' = setNth i (ofJson jc') (ofJson j) := by
  cases h with
  | arr body js he =>
    rw [ofJson, nth, ofJsons_map, List.getElem?_map] at hu
    obtain ⟨jc, h1, rfl⟩ := Option.map_eq_some_iff.mp hu
    obtain ⟨pre, c, post, e, hc, hs⟩ := elems_at he h1
    refine ⟨0x5B :: pre, c, post ++ [0x5D], jc, by rw [e]; simp, hc, rfl, ?_⟩
    intro c' jc' ht
    refine ⟨.arr (js.set i jc'), ?_, ?_⟩
    · have := GValue.arr (tc := tc) _ _ (hs c' jc' ht)
      simpa using this
    · rw [ofJson, ofJson, setNth, ofJsons_map, ofJsons_map, List.map_set]
  | obj body ms he =>
    rw [ofJson, nth, ofMembers_map, List.getElem?_map, Option.map_map] at hu
    obtain ⟨⟨k, jc⟩, h1, rfl⟩ := Option.map_eq_some_iff.mp hu
    obtain ⟨pre, kb, mid, c, post, e, e', hkv, hc, hs⟩ := members_at he h1
    refine ⟨0x7B :: (pre ++ kb ++ mid), c, post ++ [0x7D], jc, by rw [e]; simp, hc, rfl, ?_⟩
    intro c' jc' ht
    refine ⟨.obj (ms.set i (k, jc')), ?_, ?_⟩
    · have := GValue.obj (tc := tc) _ _ (hs kb k c' jc' ⟨[], kb, [], by simp [Ws], by rw [e']; exact .str k hkv, by simp [Ws], by simp⟩ ht)
      simpa using this
    · rw [ofJson, ofJson, setNth, ofMembers_map, ofMembers_map]
      congr 1
      exact set_entry ms h1 jc'
  | emptyArr w hw => simp [ofJson, ofJsons, nth] at hu
  | emptyObj w hw => simp [ofJson, ofMembers, nth] at hu
  | _ => simp [ofJson, nth] at hu

/-- Any number of steps down. -/
theorem text_place : ∀ (p : List Nat) {s : List UInt8} {j : Json} {u : Value}, Text tc s j → partAt p (ofJson j) = some u →
    ∃ pre b post jb, s = pre ++ b ++ post ∧ GValue tc b jb ∧ u = ofJson jb
      ∧ ∀ b' j', Text tc b' j' → ∃ j'', Text tc (pre ++ b' ++ post) j'' ∧ ofJson j'' = replaceAt p (ofJson j') (ofJson j)
  | [], s, j, u, ⟨w, b, w', hw, hb, hw', e⟩, hu => by
    rw [partAt, Option.some.injEq] at hu
    refine ⟨w, b, w', j, e, hb, hu.symm, ?_⟩
    rintro b' j' ⟨v, c, v', hv, hc, hv', rfl⟩
    exact ⟨j', ⟨w ++ v, c, v' ++ w', ws_append hw hv, hc, ws_append hv' hw', by simp⟩, rfl⟩
  | i :: p, s, j, u, ⟨w, b, w', hw, hb, hw', e⟩, hu => by
    rw [partAt] at hu
    obtain ⟨x, hx, hu⟩ := Option.bind_eq_some_iff.mp hu
    obtain ⟨pre, c, post, jc, e1, hc, rfl, hs⟩ := value_at hb hx
    obtain ⟨pre', d, post', jd, e2, hd, hj, hs'⟩ := text_place p (s := c) (j := jc) ⟨[], c, [], by simp [Ws], hc, by simp [Ws], by simp⟩ hu
    refine ⟨w ++ pre ++ pre', d, post' ++ post ++ w', jd, by rw [e, e1, e2]; simp, hd, hj, ?_⟩
    intro b' j' ht
    obtain ⟨j1, ht1, ej1⟩ := hs' b' j' ht
    obtain ⟨j2, ht2, ej2⟩ := hs _ j1 ht1
    refine ⟨j2, ⟨w, _, w', hw, ht2, hw', by simp⟩, ?_⟩
    rw [ej2, ej1, replaceAt, hx]

/-- Two elements of an array. -/
theorem elems_two {body : List UInt8} {js : List Json} (h : GElems tc body js) : ∀ {i k : Nat} {j l : Json}, i < k →
    js[i]? = some j → js[k]? = some l →
    ∃ pre b mid c post, body = pre ++ b ++ mid ++ c ++ post ∧ GValue tc b j ∧ GValue tc c l
      ∧ ∀ b' j' c' l', Text tc b' j' → Text tc c' l' → GElems tc (pre ++ b' ++ mid ++ c' ++ post) ((js.set i j').set k l') := by
  intro i k j l hik hi hk
  match h with
  | .one w b w' j0 hw hb hw' =>
    cases k with
    | zero => omega
    | succ k => simp at hk
  | .trailing w b w' w'' j0 ht hw hb hw' hw'' =>
    cases k with
    | zero => omega
    | succ k => simp at hk
  | .cons w b w' rest j0 js hw hb hw' hr =>
    cases k with
    | zero => omega
    | succ k =>
    cases i with
    | zero =>
      simp at hi; subst hi
      obtain ⟨pre, c, post, e, hc, hs⟩ := elems_at hr (i := k) (j := l) (by simpa using hk)
      refine ⟨w, b, w' ++ 0x2C :: pre, c, post, by rw [e]; simp, hb, hc, ?_⟩
      rintro b' j' c' l' ⟨v, x, v', hv, hx, hv', rfl⟩ hl
      have := GElems.cons (tc := tc) (w ++ v) x (v' ++ w') _ j' _ (ws_append hw hv) hx (ws_append hv' hw') (hs c' l' hl)
      simpa using this
    | succ i =>
      obtain ⟨pre, c, mid, d, post, e, hc, hd, hs⟩ := elems_two hr (i := i) (k := k) (j := j) (l := l) (by omega)
        (by simpa using hi) (by simpa using hk)
      refine ⟨w ++ b ++ w' ++ 0x2C :: pre, c, mid, d, post, by rw [e]; simp, hc, hd, ?_⟩
      intro b' j' c' l' h1 h2
      have := GElems.cons (tc := tc) w b w' _ j0 _ hw hb hw' (hs b' j' c' l' h1 h2)
      simpa using this

/-- Two values of an object. -/
theorem members_two {body : List UInt8} {ms : List (List Item × Json)} (h : GMembers tc body ms) :
    ∀ {i k : Nat} {ki kk : List Item} {j l : Json}, i < k → ms[i]? = some (ki, j) → ms[k]? = some (kk, l) →
    ∃ pre b mid c post, body = pre ++ b ++ mid ++ c ++ post ∧ GValue tc b j ∧ GValue tc c l
      ∧ ∀ b' j' c' l', Text tc b' j' → Text tc c' l' →
        GMembers tc (pre ++ b' ++ mid ++ c' ++ post) ((ms.set i (ki, j')).set k (kk, l')) := by
  intro i k ki kk j l hik hi hk
  match h with
  | .one w w1 w2 b w' k0 j0 hw hk0 hw1 hw2 hb hw' =>
    cases k with
    | zero => omega
    | succ k => simp at hk
  | .trailing w w1 w2 b w' w'' k0 j0 ht hw hk0 hw1 hw2 hb hw' hw'' =>
    cases k with
    | zero => omega
    | succ k => simp at hk
  | .cons w w1 w2 b w' rest k0 j0 ms hw hk0 hw1 hw2 hb hw' hr =>
    cases k with
    | zero => omega
    | succ k =>
    cases i with
    | zero =>
      simp at hi; obtain ⟨rfl, rfl⟩ := hi
      obtain ⟨pre, kb, mid, c, post, e, e', hkv, hc, hs⟩ := members_at hr (i := k) (k := kk) (j := l) (by simpa using hk)
      refine ⟨w ++ strBytes k0 ++ w1 ++ 0x3A :: w2, b, w' ++ 0x2C :: (pre ++ kb ++ mid), c, post, by rw [e]; simp, hb, hc, ?_⟩
      rintro b' j' c' l' ⟨v, x, v', hv, hx, hv', rfl⟩ hl
      have := GMembers.cons (tc := tc) w w1 (w2 ++ v) x (v' ++ w') _ k0 j' _ hw hk0 hw1 (ws_append hw2 hv) hx (ws_append hv' hw')
        (hs kb kk c' l' ⟨[], kb, [], by simp [Ws], by rw [e']; exact .str kk hkv, by simp [Ws], by simp⟩ hl)
      simpa using this
    | succ i =>
      obtain ⟨pre, c, mid, d, post, e, hc, hd, hs⟩ := members_two hr (i := i) (k := k) (ki := ki) (kk := kk) (j := j) (l := l)
        (by omega) (by simpa using hi) (by simpa using hk)
      refine ⟨w ++ strBytes k0 ++ w1 ++ 0x3A :: (w2 ++ b ++ w' ++ 0x2C :: pre), c, mid, d, post, by rw [e]; simp, hc, hd, ?_⟩
      intro b' j' c' l' h1 h2
      have := GMembers.cons (tc := tc) w w1 w2 b w' _ k0 j0 _ hw hk0 hw1 hw2 hb hw' (hs b' j' c' l' h1 h2)
      simpa using this

/-- Two parts of an array or object. -/
theorem value_two {b : List UInt8} {j : Json} (h : GValue tc b j) {i k : Nat} {u x : Value} (hik : i < k)
    (hu : nth i (ofJson j) = some u) (hx : nth k (ofJson j) = some x) :
    ∃ pre c mid d post jc jd, b = pre ++ c ++ mid ++ d ++ post ∧ GValue tc c jc ∧ u = ofJson jc ∧ GValue tc d jd ∧ x = ofJson jd
      ∧ ∀ c' jc' d' jd', Text tc c' jc' → Text tc d' jd' → ∃ j', GValue tc (pre ++ c' ++ mid ++ d' ++ post) j'
        ∧ ofJson j' = setNth k (ofJson jd') (setNth i (ofJson jc') (ofJson j)) := by
  cases h with
  | arr body js he =>
    rw [ofJson, nth, ofJsons_map, List.getElem?_map] at hu hx
    obtain ⟨jc, h1, rfl⟩ := Option.map_eq_some_iff.mp hu
    obtain ⟨jd, h2, rfl⟩ := Option.map_eq_some_iff.mp hx
    obtain ⟨pre, c, mid, d, post, e, hc, hd, hs⟩ := elems_two he hik h1 h2
    refine ⟨0x5B :: pre, c, mid, d, post ++ [0x5D], jc, jd, by rw [e]; simp, hc, rfl, hd, rfl, ?_⟩
    intro c' jc' d' jd' ht ht'
    refine ⟨.arr ((js.set i jc').set k jd'), ?_, ?_⟩
    · have := GValue.arr (tc := tc) _ _ (hs c' jc' d' jd' ht ht')
      simpa using this
    · rw [ofJson, ofJson, setNth, setNth, ofJsons_map, ofJsons_map, List.map_set, List.map_set]
  | obj body ms he =>
    rw [ofJson, nth, ofMembers_map, List.getElem?_map, Option.map_map] at hu hx
    obtain ⟨⟨ki, jc⟩, h1, rfl⟩ := Option.map_eq_some_iff.mp hu
    obtain ⟨⟨kk, jd⟩, h2, rfl⟩ := Option.map_eq_some_iff.mp hx
    obtain ⟨pre, c, mid, d, post, e, hc, hd, hs⟩ := members_two he hik h1 h2
    refine ⟨0x7B :: pre, c, mid, d, post ++ [0x7D], jc, jd, by rw [e]; simp, hc, rfl, hd, rfl, ?_⟩
    intro c' jc' d' jd' ht ht'
    refine ⟨.obj ((ms.set i (ki, jc')).set k (kk, jd')), ?_, ?_⟩
    · have := GValue.obj (tc := tc) _ _ (hs c' jc' d' jd' ht ht')
      simpa using this
    · rw [ofJson, ofJson, setNth, setNth, ofMembers_map, ofMembers_map, set_entry _ (j := jd) (by rw [List.getElem?_set_ne (by omega)]; exact h2),
        set_entry _ h1]
  | emptyArr w hw => simp [ofJson, ofJsons, nth] at hu
  | emptyObj w hw => simp [ofJson, ofMembers, nth] at hu
  | _ => simp [ofJson, nth] at hu

/-- An entry of an object. -/
theorem value_entry {b : List UInt8} {j : Json} (h : GValue tc b j) {es : Object} (he : ofJson j = .object es) {i : Nat}
    {k : JsonString} {u : Value} (hi : es[i]? = some (k, u)) :
    ∃ pre kb mid c post kc jc, b = pre ++ kb ++ mid ++ c ++ post ∧ GValue tc kb (.str kc) ∧ k = canonStr kc ∧ GValue tc c jc ∧ u = ofJson jc
      ∧ ∀ kb' kc' c' jc', Text tc kb' (.str kc') → Text tc c' jc' → ∃ j', GValue tc (pre ++ kb' ++ mid ++ c' ++ post) j'
        ∧ ofJson j' = .object (es.set i (canonStr kc', ofJson jc')) := by
  cases h with
  | obj body ms hm =>
    rw [ofJson] at he
    injection he with he
    subst he
    rw [ofMembers_map, List.getElem?_map] at hi
    obtain ⟨⟨kc, jc⟩, h1, h2⟩ := Option.map_eq_some_iff.mp hi
    injection h2 with h2 h3
    subst h2 h3
    obtain ⟨pre, kb, mid, c, post, e, e', hkv, hc, hs⟩ := members_at hm h1
    refine ⟨0x7B :: pre, kb, mid, c, post ++ [0x7D], kc, jc, by rw [e]; simp, by rw [e']; exact .str kc hkv, rfl, hc, rfl, ?_⟩
    intro kb' kc' c' jc' ht ht'
    refine ⟨.obj (ms.set i (kc', jc')), ?_, ?_⟩
    · have := GValue.obj (tc := tc) _ _ (hs kb' kc' c' jc' ht ht')
      simpa using this
    · rw [ofJson, ofMembers_map, ofMembers_map, List.map_set]
  | emptyObj w hw =>
    injection he with he
    subst he
    simp [ofMembers] at hi
  | _ => cases he

end
end JustJson
