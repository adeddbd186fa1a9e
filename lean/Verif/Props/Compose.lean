import Verif.Props.Accept
import Verif.Spec.Compose
/-! # Texts compose and decompose: C51 -/

namespace JustJson
open Spec

set_option linter.unusedSectionVars false

section
variable [Arch] {tc : Bool}

/-! ## Grammar -/

theorem join_cons {t : List UInt8} {ts : List (List UInt8)} (h : ts ≠ []) :
    joinTexts (t :: ts) = t ++ 0x2C :: joinTexts ts := by
  cases ts with
  | nil => exact absurd rfl h
  | cons => rfl

theorem elems_of_join : ∀ {ps : List (List UInt8 × Json)}, ps ≠ [] → (∀ p ∈ ps, Text tc p.1 p.2) →
    GElems tc (joinTexts (ps.map Prod.fst)) (ps.map Prod.snd)
  | [], h, _ => absurd rfl h
  | [p], _, h => by
    obtain ⟨w, b, w', hw, hb, hw', e⟩ := h p (by simp)
    simp only [List.map_cons, List.map_nil, joinTexts]
    rw [e]
    exact .one w b w' p.2 hw hb hw'
  | p :: q :: ps, _, h => by
    obtain ⟨w, b, w', hw, hb, hw', e⟩ := h p (by simp)
    have ih := elems_of_join (ps := q :: ps) (by simp) (fun x hx => h x (by simp [hx]))
    rw [List.map_cons, List.map_cons, join_cons (by simp), e]
    exact .cons w b w' _ p.2 _ hw hb hw' ih

theorem join_of_elems {body : List UInt8} {js : List Json} (h : GElems tc body js) :
    ∃ ps : List (List UInt8 × Json), ps ≠ [] ∧ ps.map Prod.snd = js ∧ (∀ p ∈ ps, Text tc p.1 p.2)
      ∧ (body = joinTexts (ps.map Prod.fst)
        ∨ (tc = true ∧ ∃ w, Ws w ∧ body = joinTexts (ps.map Prod.fst) ++ 0x2C :: w)) := by
  match h with
  | .one w b w' j hw hb hw' =>
    exact ⟨[(w ++ b ++ w', j)], by simp, rfl, by simp; exact ⟨w, b, w', hw, hb, hw', by simp⟩, .inl rfl⟩
  | .trailing w b w' w'' j ht hw hb hw' hw'' =>
    exact ⟨[(w ++ b ++ w', j)], by simp, rfl, by simp; exact ⟨w, b, w', hw, hb, hw', by simp⟩,
      .inr ⟨ht, w'', hw'', rfl⟩⟩
  | .cons w b w' rest j js hw hb hw' hr =>
    obtain ⟨ps, h0, h1, h2, h3⟩ := join_of_elems hr
    refine ⟨(w ++ b ++ w', j) :: ps, by simp, by simp [h1], ?_, ?_⟩
    · intro p hp
      rcases List.mem_cons.mp hp with rfl | hp
      · exact ⟨w, b, w', hw, hb, hw', rfl⟩
      · exact h2 p hp
    · rw [List.map_cons, join_cons (by simpa using h0)]
      rcases h3 with h3 | ⟨ht, v, hv, h3⟩
      · exact .inl (by rw [h3])
      · exact .inr ⟨ht, v, hv, by rw [h3]; simp⟩

theorem text_str {k : List UInt8} {is : List Item} (h : Text tc k (.str is)) :
    ∃ w w', Ws w ∧ Ws w' ∧ ItemsValid is ∧ k = w ++ strBytes is ++ w' := by
  obtain ⟨w, b, w', hw, hb, hw', e⟩ := h
  cases hb with
  | str _ hv => exact ⟨w, w', hw, hw', hv, e⟩

theorem members_of_join : ∀ {ps : List ((List UInt8 × List Item) × (List UInt8 × Json))}, ps ≠ [] →
    (∀ p ∈ ps, Text tc p.1.1 (.str p.1.2) ∧ Text tc p.2.1 p.2.2) →
    GMembers tc (joinTexts (ps.map fun p => memberText p.1.1 p.2.1)) (ps.map fun p => (p.1.2, p.2.2))
  | [], h, _ => absurd rfl h
  | [p], _, h => by
    obtain ⟨hk, w2, b, w', hw2, hb, hw', e⟩ := h p (by simp)
    obtain ⟨w, w1, hw, hw1, hv, ek⟩ := text_str hk
    simp only [List.map_cons, List.map_nil, joinTexts, memberText]
    rw [e, ek]
    exact .one w w1 w2 b w' p.1.2 p.2.2 hw hv hw1 hw2 hb hw'
  | p :: q :: ps, _, h => by
    obtain ⟨hk, w2, b, w', hw2, hb, hw', e⟩ := h p (by simp)
    obtain ⟨w, w1, hw, hw1, hv, ek⟩ := text_str hk
    have ih := members_of_join (ps := q :: ps) (by simp) (fun x hx => h x (by simp [hx]))
    rw [List.map_cons, join_cons (by simp)]
    have : memberText p.1.1 p.2.1 ++ 0x2C :: joinTexts (List.map (fun p => memberText p.1.1 p.2.1) (q :: ps))
        = w ++ strBytes p.1.2 ++ w1 ++ 0x3A :: (w2 ++ b ++ w' ++ 0x2C :: joinTexts (List.map (fun p => memberText p.1.1 p.2.1) (q :: ps))) := by
      rw [memberText, e, ek]; simp
    rw [this]
    exact .cons w w1 w2 b w' _ p.1.2 p.2.2 _ hw hv hw1 hw2 hb hw' ih

theorem join_of_members {body : List UInt8} {ms : List (List Item × Json)} (h : GMembers tc body ms) :
    ∃ ps : List ((List UInt8 × List Item) × (List UInt8 × Json)), ps ≠ [] ∧ ps.map (fun p => (p.1.2, p.2.2)) = ms
      ∧ (∀ p ∈ ps, Text tc p.1.1 (.str p.1.2) ∧ Text tc p.2.1 p.2.2)
      ∧ (body = joinTexts (ps.map fun p => memberText p.1.1 p.2.1)
        ∨ (tc = true ∧ ∃ w, Ws w ∧ body = joinTexts (ps.map fun p => memberText p.1.1 p.2.1) ++ 0x2C :: w)) := by
  match h with
  | .one w w1 w2 b w' k j hw hk hw1 hw2 hb hw' =>
    refine ⟨[((w ++ strBytes k ++ w1, k), (w2 ++ b ++ w', j))], by simp, rfl, ?_, .inl rfl⟩
    intro p hp
    rw [List.mem_singleton] at hp
    subst hp
    exact ⟨⟨w, _, w1, hw, .str k hk, hw1, rfl⟩, ⟨w2, b, w', hw2, hb, hw', rfl⟩⟩
  | .trailing w w1 w2 b w' w'' k j ht hw hk hw1 hw2 hb hw' hw'' =>
    refine ⟨[((w ++ strBytes k ++ w1, k), (w2 ++ b ++ w', j))], by simp, rfl, ?_, .inr ⟨ht, w'', hw'', by simp [joinTexts, memberText]⟩⟩
    intro p hp
    rw [List.mem_singleton] at hp
    subst hp
    exact ⟨⟨w, _, w1, hw, .str k hk, hw1, rfl⟩, ⟨w2, b, w', hw2, hb, hw', rfl⟩⟩
  | .cons w w1 w2 b w' rest k j ms hw hk hw1 hw2 hb hw' hr =>
    obtain ⟨ps, h0, h1, h2, h3⟩ := join_of_members hr
    refine ⟨((w ++ strBytes k ++ w1, k), (w2 ++ b ++ w', j)) :: ps, by simp, by simp [h1], ?_, ?_⟩
    · intro p hp
      rcases List.mem_cons.mp hp with rfl | hp
      · exact ⟨⟨w, _, w1, hw, .str k hk, hw1, rfl⟩, ⟨w2, b, w', hw2, hb, hw', rfl⟩⟩
      · exact h2 p hp
    · rw [List.map_cons, join_cons (by simpa using h0)]
      rcases h3 with h3 | ⟨ht, v, hv, h3⟩
      · exact .inl (by rw [h3]; simp [memberText])
      · exact .inr ⟨ht, v, hv, by rw [h3]; simp [memberText]⟩

theorem join_part_le {ts : List (List UInt8)} {t : List UInt8} (h : t ∈ ts) : t.length ≤ (joinTexts ts).length := by
  induction ts with
  | nil => cases h
  | cons a ts ih =>
    by_cases hn : ts = []
    · subst hn
      rw [List.mem_singleton.mp h]
      exact Nat.le_refl _
    · rw [join_cons hn, List.length_append, List.length_cons]
      rcases List.mem_cons.mp h with rfl | h
      · omega
      · have := ih h; omega

theorem part_input {src t : List UInt8} (h : SliceFits src) (hle : t.length ≤ src.length) : Input false t :=
  input_bytes (Nat.le_trans hle h)

theorem ofJsons_map : ∀ js : List Json, ofJsons js = js.map ofJson
  | [] => rfl
  | j :: js => by rw [ofJsons, ofJsons_map js]; rfl

theorem ofMembers_map : ∀ ms : List (List Item × Json), ofMembers ms = ms.map fun m => (canonStr m.1, ofJson m.2)
  | [] => rfl
  | (k, j) :: ms => by rw [ofMembers, ofMembers_map ms]; rfl

theorem part_ok {src : List UInt8} {cfg : ParseConfig} (h : Input false src) {v : Value} :
    Value.parseWithConfig false src cfg.forPart = .ok v ↔ ∃ j, Text cfg.allowTrailingCommas src j ∧ v = ofJson j := by
  rw [value_ok_iff h]
  constructor
  · rintro ⟨j, ⟨h1, _, _⟩, rfl⟩; exact ⟨j, h1, rfl⟩
  · rintro ⟨j, h1, rfl⟩; exact ⟨j, ⟨h1, (fun n hn => by cases hn), .inl rfl⟩, rfl⟩

/-- choose a witness for each member of a list -/
theorem choose_list {α β : Type} {P : α → β → Prop} : ∀ {l : List α}, (∀ a ∈ l, ∃ b, P a b) →
    ∃ l' : List (α × β), l'.map Prod.fst = l ∧ ∀ p ∈ l', P p.1 p.2
  | [], _ => ⟨[], rfl, by simp⟩
  | a :: l, h => by
    obtain ⟨b, hb⟩ := h a (by simp)
    obtain ⟨l', h1, h2⟩ := choose_list (l := l) (fun x hx => h x (by simp [hx]))
    refine ⟨(a, b) :: l', by simp [h1], ?_⟩
    intro p hp
    rcases List.mem_cons.mp hp with rfl | hp
    · exact hb
    · exact h2 p hp

/-! ## C51 -/

/-- **C51.** Accepted texts joined by commas between brackets are accepted as the array of their values, if the
limit permits the depth. -/
theorem C51_array_of_texts (g : Bool) (cfg : ParseConfig) (ps : List (List UInt8 × Value))
    (h : Input g (arrayText (ps.map Prod.fst)))
    (hp : ∀ p ∈ ps, Value.parseWithConfig false p.1 cfg.forPart = .ok p.2)
    (hd : ∀ n, cfg.recursionLimit = some n → (Value.array (ps.map Prod.snd)).depth ≤ n) :
    Value.parseWithConfig g (arrayText (ps.map Prod.fst)) cfg = .ok (.array (ps.map Prod.snd)) := by
  have hin : ∀ p ∈ ps, Input false p.1 := fun p hm => part_input h.1 (by
    have := join_part_le (List.mem_map_of_mem (f := Prod.fst) hm)
    simp only [arrayText, List.length_cons, List.length_append, List.length_nil]
    omega)
  obtain ⟨qs, h1, h2⟩ := choose_list (l := ps) (P := fun p j => Text cfg.allowTrailingCommas p.1 j ∧ p.2 = ofJson j)
    (fun p hm => (part_ok (hin p hm)).mp (hp p hm))
  have hv : ps.map Prod.snd = ofJsons (qs.map Prod.snd) := by
    rw [ofJsons_map, ← h1, List.map_map, List.map_map]
    exact List.map_congr_left fun q hq => (h2 q hq).2
  have hg : GValue cfg.allowTrailingCommas (arrayText (ps.map Prod.fst)) (.arr (qs.map Prod.snd)) := by
    cases qs with
    | nil =>
      have : ps = [] := by rw [← h1]; rfl
      subst this
      exact .emptyArr [] (by simp [Ws])
    | cons q qs =>
      have := elems_of_join (tc := cfg.allowTrailingCommas) (ps := (q :: qs).map fun q => (q.1.1, q.2)) (by simp)
        (fun x hx => by
          obtain ⟨y, hy, rfl⟩ := List.mem_map.mp hx
          exact (h2 y hy).1)
      rw [List.map_map, List.map_map] at this
      rw [← h1, List.map_map]
      exact .arr _ _ this
  have hval : Value.array (ps.map Prod.snd) = ofJson (.arr (qs.map Prod.snd)) := by rw [hv]; rfl
  rw [hval] at hd ⊢
  refine accepted_ok h ⟨⟨[], _, [], by simp [Ws], hg, by simp [Ws], by simp⟩, ?_, .inr True.intro⟩
  intro n hn
  rw [← depth_ofJson.1]
  exact hd n hn

/-- **C51.** Likewise for objects: a key text is one accepted as a string. -/
theorem C51_object_of_texts (g : Bool) (cfg : ParseConfig)
    (ps : List ((List UInt8 × JsonString) × (List UInt8 × Value)))
    (h : Input g (objectText (ps.map fun p => (p.1.1, p.2.1))))
    (hk : ∀ p ∈ ps, Value.parseWithConfig false p.1.1 cfg.forPart = .ok (.string p.1.2))
    (hp : ∀ p ∈ ps, Value.parseWithConfig false p.2.1 cfg.forPart = .ok p.2.2)
    (hd : ∀ n, cfg.recursionLimit = some n → (Value.object (ps.map fun p => (p.1.2, p.2.2))).depth ≤ n) :
    Value.parseWithConfig g (objectText (ps.map fun p => (p.1.1, p.2.1))) cfg
      = .ok (.object (ps.map fun p => (p.1.2, p.2.2))) := by
  have hle : ∀ p ∈ ps, (memberText p.1.1 p.2.1).length ≤ (objectText (ps.map fun p => (p.1.1, p.2.1))).length := by
    intro p hm
    have := join_part_le (List.mem_map_of_mem (f := fun m : List UInt8 × List UInt8 => memberText m.1 m.2)
      (List.mem_map_of_mem (f := fun p : (List UInt8 × JsonString) × (List UInt8 × Value) => (p.1.1, p.2.1)) hm))
    simp only [objectText, List.length_cons, List.length_append, List.length_nil]
    simp only at this
    omega
  have hin1 : ∀ p ∈ ps, Input false p.1.1 := fun p hm => part_input h.1 (by
    have := hle p hm; simp only [memberText, List.length_append] at this; omega)
  have hin2 : ∀ p ∈ ps, Input false p.2.1 := fun p hm => part_input h.1 (by
    have := hle p hm; simp only [memberText, List.length_append, List.length_cons] at this; omega)
  obtain ⟨qs, h1, h2⟩ := choose_list (l := ps) (P := fun p (x : List Item × Json) =>
      (Text cfg.allowTrailingCommas p.1.1 (.str x.1) ∧ p.1.2 = canonStr x.1)
      ∧ Text cfg.allowTrailingCommas p.2.1 x.2 ∧ p.2.2 = ofJson x.2)
    (fun p hm => by
      obtain ⟨jk, hj1, hj2⟩ := (part_ok (hin1 p hm)).mp (hk p hm)
      obtain ⟨j, hj3, hj4⟩ := (part_ok (hin2 p hm)).mp (hp p hm)
      cases jk with
      | str is =>
        injection hj2 with hj2
        exact ⟨(is, j), ⟨hj1, hj2⟩, hj3, hj4⟩
      | _ => cases hj2)
  have hv : (ps.map fun p => (p.1.2, p.2.2)) = ofMembers (qs.map Prod.snd) := by
    rw [ofMembers_map, ← h1, List.map_map, List.map_map]
    exact List.map_congr_left fun q hq => by
      obtain ⟨⟨_, e1⟩, _, e2⟩ := h2 q hq
      simp only [Function.comp]
      rw [e1, e2]
  have hg : GValue cfg.allowTrailingCommas (objectText (ps.map fun p => (p.1.1, p.2.1))) (.obj (qs.map Prod.snd)) := by
    cases qs with
    | nil =>
      have : ps = [] := by rw [← h1]; rfl
      subst this
      exact .emptyObj [] (by simp [Ws])
    | cons q qs =>
      have := members_of_join (tc := cfg.allowTrailingCommas)
        (ps := (q :: qs).map fun q => ((q.1.1.1, q.2.1), (q.1.2.1, q.2.2))) (by simp)
        (fun x hx => by
          obtain ⟨y, hy, rfl⟩ := List.mem_map.mp hx
          exact ⟨(h2 y hy).1.1, (h2 y hy).2.1⟩)
      rw [List.map_map, List.map_map] at this
      rw [← h1, List.map_map, objectText, List.map_map]
      exact .obj _ _ this
  have hval : Value.object (ps.map fun p => (p.1.2, p.2.2)) = ofJson (.obj (qs.map Prod.snd)) := by rw [hv]; rfl
  rw [hval] at hd ⊢
  refine accepted_ok h ⟨⟨[], _, [], by simp [Ws], hg, by simp [Ws], by simp⟩, ?_, .inr True.intro⟩
  intro n hn
  rw [← depth_ofJson.1]
  exact hd n hn

/-- **C51**, conversely: a text accepted as an array is, but for whitespace around it and in an empty array and an
allowed trailing comma, the texts of its elements joined by commas, each accepted by itself as that element. -/
theorem C51_array_decomposes (g : Bool) (src : List UInt8) (h : Input g src) (cfg : ParseConfig) (vs : List Value)
    (hv : Value.parseWithConfig g src cfg = .ok (.array vs)) :
    ∃ (w w' extra : List UInt8) (ps : List (List UInt8 × Value)), Ws w ∧ Ws w'
      ∧ src = w ++ 0x5B :: (joinTexts (ps.map Prod.fst) ++ extra ++ 0x5D :: w')
      ∧ ps.map Prod.snd = vs ∧ (∀ p ∈ ps, Value.parseWithConfig false p.1 cfg.forPart = .ok p.2)
      ∧ (extra = [] ∨ (vs = [] ∧ Ws extra) ∨ (vs ≠ [] ∧ cfg.allowTrailingCommas = true ∧ ∃ v, Ws v ∧ extra = 0x2C :: v)) := by
  obtain ⟨j, ⟨⟨w, b, w', hw, hb, hw', hs⟩, -, -⟩, hj⟩ := (value_ok_iff h).mp hv
  cases hb with
  | emptyArr v hvw =>
    injection hj with hj
    exact ⟨w, w', v, [], hw, hw', by rw [hs]; simp [joinTexts], by rw [hj]; rfl, by simp, .inr (.inl ⟨hj, hvw⟩)⟩
  | arr body js he =>
    injection hj with hj
    obtain ⟨ps, h0, h1, h2, h3⟩ := join_of_elems he
    have hlen : ∀ p ∈ ps, p.1.length ≤ src.length := by
      intro p hm
      have h4 := join_part_le (List.mem_map_of_mem (f := Prod.fst) hm)
      have h5 : (joinTexts (ps.map Prod.fst)).length ≤ body.length := by
        rcases h3 with h3 | ⟨_, _, _, h3⟩ <;> rw [h3] <;> simp
      have h6 := congrArg List.length hs
      simp only [List.length_append, List.length_cons] at h6
      omega
    have hne : vs ≠ [] := by
      rw [hj, ofJsons_map, ← h1]
      simpa using h0
    have hps : ∀ p ∈ ps.map (fun p : List UInt8 × Json => (p.1, ofJson p.2)),
        Value.parseWithConfig false p.1 cfg.forPart = .ok p.2 := by
      intro p hp
      obtain ⟨q, hq, rfl⟩ := List.mem_map.mp hp
      exact (part_ok (part_input h.1 (hlen q hq))).mpr ⟨q.2, h2 q hq, rfl⟩
    have hsnd : (ps.map (fun p : List UInt8 × Json => (p.1, ofJson p.2))).map Prod.snd = vs := by
      rw [hj, ofJsons_map, ← h1, List.map_map, List.map_map]
      rfl
    have hfst : (ps.map (fun p : List UInt8 × Json => (p.1, ofJson p.2))).map Prod.fst = ps.map Prod.fst := by
      rw [List.map_map]
      rfl
    rcases h3 with h3 | ⟨ht, v, hvw, h3⟩
    · exact ⟨w, w', [], _, hw, hw', by rw [hfst, hs, h3]; simp, hsnd, hps, .inl rfl⟩
    · exact ⟨w, w', 0x2C :: v, _, hw, hw', by rw [hfst, hs, h3]; simp, hsnd, hps, .inr (.inr ⟨hne, ht, v, hvw, rfl⟩)⟩
  | _ => cases hj

/-- **C51**, conversely, for objects. -/
theorem C51_object_decomposes (g : Bool) (src : List UInt8) (h : Input g src) (cfg : ParseConfig) (es : Object)
    (hv : Value.parseWithConfig g src cfg = .ok (.object es)) :
    ∃ (w w' extra : List UInt8) (ps : List ((List UInt8 × JsonString) × (List UInt8 × Value))), Ws w ∧ Ws w'
      ∧ src = w ++ 0x7B :: (joinTexts (ps.map fun p => memberText p.1.1 p.2.1) ++ extra ++ 0x7D :: w')
      ∧ ps.map (fun p => (p.1.2, p.2.2)) = es
      ∧ (∀ p ∈ ps, Value.parseWithConfig false p.1.1 cfg.forPart = .ok (.string p.1.2)
        ∧ Value.parseWithConfig false p.2.1 cfg.forPart = .ok p.2.2)
      ∧ (extra = [] ∨ (es = [] ∧ Ws extra) ∨ (es ≠ [] ∧ cfg.allowTrailingCommas = true ∧ ∃ v, Ws v ∧ extra = 0x2C :: v)) := by
  obtain ⟨j, ⟨⟨w, b, w', hw, hb, hw', hs⟩, -, -⟩, hj⟩ := (value_ok_iff h).mp hv
  cases hb with
  | emptyObj v hvw =>
    injection hj with hj
    exact ⟨w, w', v, [], hw, hw', by rw [hs]; simp [joinTexts], by rw [hj]; rfl, by simp, .inr (.inl ⟨hj, hvw⟩)⟩
  | obj body ms he =>
    injection hj with hj
    obtain ⟨ps, h0, h1, h2, h3⟩ := join_of_members he
    have hlen : ∀ p ∈ ps, (memberText p.1.1 p.2.1).length ≤ src.length := by
      intro p hm
      have h4 := join_part_le (List.mem_map_of_mem
        (f := fun p : (List UInt8 × List Item) × (List UInt8 × Json) => memberText p.1.1 p.2.1) hm)
      have h5 : (joinTexts (ps.map fun p => memberText p.1.1 p.2.1)).length ≤ body.length := by
        rcases h3 with h3 | ⟨_, _, _, h3⟩ <;> rw [h3] <;> simp
      have h6 := congrArg List.length hs
      simp only [List.length_append, List.length_cons] at h6
      omega
    have hne : es ≠ [] := by
      rw [hj, ofMembers_map, ← h1]
      simpa using h0
    let f : (List UInt8 × List Item) × (List UInt8 × Json) → (List UInt8 × JsonString) × (List UInt8 × Value) :=
      fun p => ((p.1.1, canonStr p.1.2), (p.2.1, ofJson p.2.2))
    have hps : ∀ p ∈ ps.map f, Value.parseWithConfig false p.1.1 cfg.forPart = .ok (.string p.1.2)
        ∧ Value.parseWithConfig false p.2.1 cfg.forPart = .ok p.2.2 := by
      intro p hp
      obtain ⟨q, hq, rfl⟩ := List.mem_map.mp hp
      have hl := hlen q hq
      simp only [memberText, List.length_append, List.length_cons] at hl
      exact ⟨(part_ok (part_input h.1 (by show q.1.1.length ≤ _; omega))).mpr ⟨.str q.1.2, (h2 q hq).1, rfl⟩,
        (part_ok (part_input h.1 (by show q.2.1.length ≤ _; omega))).mpr ⟨q.2.2, (h2 q hq).2, rfl⟩⟩
    have hsnd : (ps.map f).map (fun p => (p.1.2, p.2.2)) = es := by
      rw [hj, ofMembers_map, ← h1, List.map_map, List.map_map]
      rfl
    have hfst : (ps.map f).map (fun p => memberText p.1.1 p.2.1) = ps.map (fun p => memberText p.1.1 p.2.1) := by
      rw [List.map_map]
      rfl
    rcases h3 with h3 | ⟨ht, v, hvw, h3⟩
    · exact ⟨w, w', [], _, hw, hw', by rw [hfst, hs, h3]; simp, hsnd, hps, .inl rfl⟩
    · exact ⟨w, w', 0x2C :: v, _, hw, hw', by rw [hfst, hs, h3]; simp, hsnd, hps, .inr (.inr ⟨hne, ht, v, hvw, rfl⟩)⟩
  | _ => cases hj

end

/-! ## Concrete cases -/
section
attribute [local instance] arch64

/-- C51: two texts with whitespace and their values. -/
example : arrayText [b8 " 1 ", b8 "[ ]"] = b8 "[ 1 ,[ ]]" := by decide +kernel
example : ∃ v v', Value.parseWithConfig false (b8 " 1 ") ParseConfig.new.forPart = .ok v
    ∧ Value.parseWithConfig false (b8 "[ ]") ParseConfig.new.forPart = .ok v'
    ∧ Value.parseWithConfig false (b8 "[ 1 ,[ ]]") .new = .ok (.array [v, v']) :=
  ⟨.number ⟨.borrowed ['1']⟩, .array [], value_same (by decide +kernel), value_same (by decide +kernel),
    value_same (by decide +kernel)⟩
example : objectText [(b8 "\"k\" ", b8 "1")] = b8 "{\"k\" :1}" := by decide +kernel

end

/-! ## Instances: each theorem above applied to a concrete case that meets its hypotheses -/
section Instances
attribute [local instance] arch64

example := C51_array_of_texts false .new [(b8 " 1 ", .number ⟨.borrowed ['1']⟩), (b8 "[ ]", .array [])] (by lit)
  (fun p hp => by
    rcases List.mem_cons.mp hp with rfl | hp
    · exact value_same (by decide +kernel)
    · rcases List.mem_singleton.mp hp with rfl
      exact value_same (by decide +kernel))
  (fun n hn => by cases hn; decide +kernel)
example := C51_object_of_texts false .new [((b8 "\"k\" ", canonStr [.plain 'k']), (b8 " 1 ", .number ⟨.borrowed ['1']⟩))] (by lit)
  (fun p hp => by rcases List.mem_singleton.mp hp with rfl; exact value_same (by decide +kernel))
  (fun p hp => by rcases List.mem_singleton.mp hp with rfl; exact value_same (by decide +kernel))
  (fun n hn => by cases hn; decide +kernel)
example := C51_array_decomposes true (b8 "[ 1 ,[ ]]") (by lit) .new [.number ⟨.borrowed ['1']⟩, .array []] (value_same (by decide +kernel))
example := C51_object_decomposes true exSrc (exSrc_input _) .new _ (exSrc_parses _)

end Instances
end JustJson
