import Verif.Spec.Compare
import Verif.Props.Info
import Verif.Props.Phrase
import Verif.Props.Stream
import Verif.Props.Values
/-! # Comparing tokens, errors, kinds and configurations: C85 -/

namespace JustJson
open Spec

section
variable [Arch]

omit [Arch] in
theorem number_eq_iff {m n : JsonNumber} : m.eq n = true ↔ m.sourceStr = n.sourceStr := by
  unfold JsonNumber.eq AnyStr.eq JsonNumber.sourceStr
  exact beq_iff_eq

/-- the string of a token, if it is one -/
def Token.StringIs (P : JsonString → Prop) : Token → Prop
  | .string s => P s
  | _ => True

theorem token_eq_by {P : JsonString → Prop} (hP : ∀ s t, P s → P t → EqIs eqOf s t ∧ (eqOf s t = true ↔ SameText s t))
    {a b : Token} (ha : a.StringIs P) (hb : b.StringIs P) : ∃ r, a.eq b = .ok r ∧ (r = true ↔ SameToken a b) := by
  cases a <;> cases b
  case string.string s t =>
    obtain ⟨h1, h2⟩ := hP s t ha hb
    refine ⟨_, h1, h2.trans ⟨.string s t, ?_⟩⟩
    intro h; cases h; assumption
  case bool.bool x y =>
    refine ⟨_, rfl, beq_iff_eq.trans ⟨?_, ?_⟩⟩
    · rintro rfl; exact .bool x
    · intro h; cases h; rfl
  case number.number m n =>
    refine ⟨_, rfl, number_eq_iff.trans ⟨.number m n, ?_⟩⟩
    intro h; cases h; assumption
  all_goals first
    | exact ⟨true, rfl, fun _ => by constructor, fun _ => rfl⟩
    | exact ⟨false, rfl, fun h => (by cases h), fun h => by cases h⟩

theorem yielded_string {t : Token} (h : Yielded t) : t.StringIs Parsed := by
  obtain ⟨g, src, cs, c, hi, hr⟩ := h
  cases t with
  | string s => exact .token g src cs c s hi hr
  | _ => exact True.intro

/-- **C85.** `==` of two tokens that tokenizers returned, whatever the sources and calls, never panics and is true exactly if they
are the same but for the spelling of strings. -/
theorem C85_tokens (a b : Token) (ha : Yielded a) (hb : Yielded b) : ∃ r, a.eq b = .ok r ∧ (r = true ↔ SameToken a b) :=
  token_eq_by (fun _ _ hs ht => eqOf_parsed hs ht) (yielded_string ha) (yielded_string hb)

/-- **C85.** For tokens that a client makes up from any strings it can have, `==` never panics, is reflexive and symmetric, and is
true only of the same tokens. -/
theorem C85_tokens_made_up (a b : Token) (ha : ∀ s, a = .string s → Obtainable s) (hb : ∀ s, b = .string s → Obtainable s) :
    (∃ r, a.eq b = .ok r ∧ (r = true → SameToken a b)) ∧ a.eq a = .ok true ∧ a.eq b = b.eq a := by
  have he : ∀ {s t : JsonString}, Obtainable s → Obtainable t → s.eq t = .ok (eqOf s t) := fun hs ht => (eqOf_obtainable hs ht).1
  refine ⟨?_, ?_, ?_⟩
  · cases a <;> cases b
    case string.string s t =>
      have h := eqOf_obtainable (ha s rfl) (hb t rfl)
      exact ⟨_, h.1, fun h' => .string s t (h.2 h')⟩
    case bool.bool x y => exact ⟨_, rfl, fun h => by rw [beq_iff_eq.mp h]; exact .bool y⟩
    case number.number m n => exact ⟨_, rfl, fun h => .number m n (number_eq_iff.mp h)⟩
    all_goals first
      | exact ⟨true, rfl, fun _ => by constructor⟩
      | exact ⟨false, rfl, fun h => by cases h⟩
  · cases a with
    | string s => exact (C44_eq_built (.string s) (.string s) (.string s (ha s rfl)) (.string s (ha s rfl))).2.2.1
    | bool x => cases x <;> rfl
    | number m => exact congrArg Res.ok (number_eq_iff.mpr rfl)
    | _ => rfl
  · cases a <;> cases b
    case string.string s t =>
      exact (C44_eq_built (.string s) (.string t) (.string s (ha s rfl)) (.string t (hb t rfl))).2.2.2
    case bool.bool x y => cases x <;> cases y <;> rfl
    case number.number m n =>
      show Res.ok (m.eq n) = Res.ok (n.eq m)
      rw [Bool.eq_iff_iff.mpr (number_eq_iff.trans (eq_comm.trans number_eq_iff.symm))]
    all_goals rfl

/-! ### Streams -/

theorem history_yielded {g : Bool} {src : List UInt8} (hi : Input g src) {t : Token} : ∀ (n : Nat) (pre : List Call),
    Reply.token t ∈ (history src g (List.replicate n .next) (offsetAfter src g pre)).1.map Prod.snd → Yielded t
  | 0, _, h => by cases h
  | n + 1, pre, h => by
    rw [List.replicate_succ, history] at h
    simp only [List.map_cons, List.mem_cons] at h
    rcases h with h | h
    · exact ⟨g, src, pre, .next, hi, h.symm⟩
    · apply history_yielded hi n (pre ++ [.next])
      have e : offsetAfter src g (pre ++ [.next]) = (Call.next.run src g (offsetAfter src g pre)).2 := by
        unfold offsetAfter
        rw [history_append]
        rfl
      rw [e]
      exact h

theorem stream_yielded {g : Bool} {src : List UInt8} (hi : Input g src) {ts : List Token} (hs : Stream g src ts) :
    ∀ t ∈ ts, Yielded t := by
  intro t ht
  apply history_yielded hi (ts.length + 1) []
  unfold Stream at hs
  show Reply.token t ∈ (history src g (List.replicate (ts.length + 1) .next) 0).1.map Prod.snd
  rw [hs]
  exact List.mem_append_left _ (List.mem_map_of_mem ht)

/-- the same tokens, one by one -/
inductive SameTokens : List Token → List Token → Prop where
  | nil : SameTokens [] []
  | cons (a b : Token) (as bs : List Token) : SameToken a b → SameTokens as bs → SameTokens (a :: as) (b :: bs)

theorem SameTokens.append {a b c d : List Token} (h : SameTokens a b) (h' : SameTokens c d) : SameTokens (a ++ c) (b ++ d) := by
  induction h with
  | nil => exact h'
  | cons a b as bs h1 _ ih => exact .cons a b _ _ h1 ih

theorem SameTokens.split : ∀ {a c l : List Token}, SameTokens (a ++ c) l → ∃ b d, l = b ++ d ∧ SameTokens a b ∧ SameTokens c d
  | [], c, l, h => ⟨[], l, rfl, .nil, h⟩
  | x :: a, c, l, h => by
    cases h with
    | cons _ y _ bs h1 h2 =>
      obtain ⟨b, d, rfl, h3, h4⟩ := SameTokens.split h2
      exact ⟨y :: b, d, rfl, .cons x y a b h1 h3, h4⟩

theorem SameTokens.last {t : Token} {l : List Token} (h : SameTokens [t] l) : ∃ u, l = [u] ∧ SameToken t u := by
  cases h with
  | cons _ u _ bs h1 h2 => cases h2; exact ⟨u, rfl, h1⟩

theorem eqStreams_iff : ∀ {as bs : List Token}, (∀ a ∈ as, Yielded a) → (∀ b ∈ bs, Yielded b) → (EqStreams as bs ↔ SameTokens as bs)
  | [], [], _, _ => ⟨fun _ => .nil, fun _ => .nil⟩
  | [], _ :: _, _, _ => ⟨fun h => (by cases h), fun h => (by cases h)⟩
  | _ :: _, [], _, _ => ⟨fun h => (by cases h), fun h => (by cases h)⟩
  | a :: as, b :: bs, ha, hb => by
    have ih := eqStreams_iff (as := as) (bs := bs) (fun x h => ha x (List.mem_cons_of_mem _ h)) (fun x h => hb x (List.mem_cons_of_mem _ h))
    obtain ⟨r, h1, h2⟩ := C85_tokens a b (ha a (by simp)) (hb b (by simp))
    constructor
    · intro h
      cases h with
      | cons _ _ _ _ h3 h4 =>
        rw [h1] at h3
        injection h3 with h3
        exact .cons a b as bs (h2.mp h3) (ih.mp h4)
    · intro h
      cases h with
      | cons _ _ _ _ h3 h4 => exact .cons a b as bs (by rw [h1, h2.mpr h3]) (ih.mpr h4)

/-- the same tokens are those of a value with the same content -/
theorem phrase_same {tc : Bool} {ts : List Token} {v : Value} (h : Phrase tc ts v) : ∀ ts', SameTokens ts ts' →
    ∃ w, Phrase tc ts' w ∧ SameContent v w := by
  refine Phrase.rec
    (motive_1 := fun ts v _ => ∀ ts', SameTokens ts ts' → ∃ w, Phrase tc ts' w ∧ SameContent v w)
    (motive_2 := fun ts vs _ => ∀ ts', SameTokens ts ts' → ∃ ws, PhraseElems tc ts' ws ∧ SameElems vs ws)
    (motive_3 := fun ts es _ => ∀ ts', SameTokens ts ts' → ∃ fs, PhraseEntries tc ts' fs ∧ SameEntries es fs)
    ?_ ?_ ?_ ?_ ?_ ?_ ?_ ?_ ?_ ?_ ?_ ?_ ?_ ?_ h
  · intro ts' h
    obtain ⟨u, rfl, hu⟩ := h.last
    cases hu
    exact ⟨_, .null, .null⟩
  · intro b ts' h
    obtain ⟨u, rfl, hu⟩ := h.last
    cases hu
    exact ⟨_, .bool b, .boolean b⟩
  · intro n ts' h
    obtain ⟨u, rfl, hu⟩ := h.last
    cases hu with
    | number _ m hm => exact ⟨_, .number m, .number n m hm⟩
  · intro s ts' h
    obtain ⟨u, rfl, hu⟩ := h.last
    cases hu with
    | string _ t ht => exact ⟨_, .string t, .string s t ht⟩
  · intro ts' h
    cases h with
    | cons _ _ _ _ h1 h2 =>
      obtain ⟨u, rfl, h3⟩ := h2.last
      cases h1; cases h3
      exact ⟨_, .emptyArray, .array _ _ .nil⟩
  · intro ts vs _ ih ts' h
    cases h with
    | cons _ _ _ _ h1 h2 =>
      obtain ⟨b, d, rfl, h3, h4⟩ := h2.split
      obtain ⟨u, rfl, h5⟩ := h4.last
      cases h1; cases h5
      obtain ⟨ws, h6, h7⟩ := ih b h3
      exact ⟨_, .array b ws h6, .array _ _ h7⟩
  · intro ts' h
    cases h with
    | cons _ _ _ _ h1 h2 =>
      obtain ⟨u, rfl, h3⟩ := h2.last
      cases h1; cases h3
      exact ⟨_, .emptyObject, .object _ _ .nil⟩
  · intro ts vs _ ih ts' h
    cases h with
    | cons _ _ _ _ h1 h2 =>
      obtain ⟨b, d, rfl, h3, h4⟩ := h2.split
      obtain ⟨u, rfl, h5⟩ := h4.last
      cases h1; cases h5
      obtain ⟨ws, h6, h7⟩ := ih b h3
      exact ⟨_, .object b ws h6, .object _ _ h7⟩
  · intro ts v _ ih ts' h
    obtain ⟨w, h1, h2⟩ := ih ts' h
    exact ⟨_, .one ts' w h1, .cons _ _ _ _ h2 .nil⟩
  · intro ts v htc _ ih ts' h
    obtain ⟨b, d, rfl, h3, h4⟩ := h.split
    obtain ⟨u, rfl, h5⟩ := h4.last
    cases h5
    obtain ⟨w, h1, h2⟩ := ih b h3
    exact ⟨_, .trailing b w htc h1, .cons _ _ _ _ h2 .nil⟩
  · intro ts rest v vs _ _ ih1 ih2 ts' h
    obtain ⟨b, d, rfl, h3, h4⟩ := h.split
    cases h4 with
    | cons _ _ _ d h5 h6 =>
      cases h5
      obtain ⟨w, h1, h2⟩ := ih1 b h3
      obtain ⟨ws, h7, h8⟩ := ih2 d h6
      exact ⟨_, .cons b d w ws h1 h7, .cons _ _ _ _ h2 h8⟩
  · intro ts k v _ ih ts' h
    cases h with
    | cons _ _ _ _ hk h =>
      cases h with
      | cons _ _ _ r hc h =>
        cases hc
        cases hk with
        | string _ l hk =>
          obtain ⟨w, h1, h2⟩ := ih r h
          exact ⟨_, .one r l w h1, .cons _ _ _ _ _ _ hk h2 .nil⟩
  · intro ts k v htc _ ih ts' h
    cases h with
    | cons _ _ _ _ hk h =>
      cases h with
      | cons _ _ _ r hc h =>
        cases hc
        cases hk with
        | string _ l hk =>
          obtain ⟨b, d, rfl, h3, h4⟩ := h.split
          obtain ⟨u, rfl, h5⟩ := h4.last
          cases h5
          obtain ⟨w, h1, h2⟩ := ih b h3
          exact ⟨_, .trailing b l w htc h1, .cons _ _ _ _ _ _ hk h2 .nil⟩
  · intro ts rest k v es _ _ ih1 ih2 ts' h
    cases h with
    | cons _ _ _ _ hk h =>
      cases h with
      | cons _ _ _ r hc h =>
        cases hc
        cases hk with
        | string _ l hk =>
          obtain ⟨b, d, rfl, h3, h4⟩ := h.split
          cases h4 with
          | cons _ _ _ d h5 h6 =>
            cases h5
            obtain ⟨w, h1, h2⟩ := ih1 b h3
            obtain ⟨ws, h7, h8⟩ := ih2 d h6
            exact ⟨_, .cons b d l w ws h1 h7, .cons _ _ _ _ _ _ hk h2 h8⟩

/-- without trailing commas, the tokens of values with the same content are the same -/
theorem same_phrase {ts : List Token} {v : Value} (h : Phrase false ts v) : ∀ ts' w, Phrase false ts' w → SameContent v w →
    SameTokens ts ts' := by
  refine Phrase.rec (tc := false)
    (motive_1 := fun ts v _ => ∀ ts' w, Phrase false ts' w → SameContent v w → SameTokens ts ts')
    (motive_2 := fun ts vs _ => ∀ ts' ws, PhraseElems false ts' ws → SameElems vs ws → SameTokens ts ts')
    (motive_3 := fun ts es _ => ∀ ts' fs, PhraseEntries false ts' fs → SameEntries es fs → SameTokens ts ts')
    ?_ ?_ ?_ ?_ ?_ ?_ ?_ ?_ ?_ ?_ ?_ ?_ ?_ ?_ h
  · intro ts' w hp hc
    cases hc; cases hp; exact .cons _ _ _ _ .null .nil
  · intro b ts' w hp hc
    cases hc; cases hp; exact .cons _ _ _ _ (.bool b) .nil
  · intro n ts' w hp hc
    cases hc with
    | number _ m h => cases hp; exact .cons _ _ _ _ (.number n m h) .nil
  · intro s ts' w hp hc
    cases hc with
    | string _ t h => cases hp; exact .cons _ _ _ _ (.string s t h) .nil
  · intro ts' w hp hc
    cases hc with
    | array _ ws h =>
      cases h
      cases hp with
      | emptyArray => exact .cons _ _ _ _ .array (.cons _ _ _ _ .arrayEnd .nil)
      | array _ _ h => cases h
  · intro ts vs hts ih ts' w hp hc
    cases hc with
    | array _ ws h =>
      cases hp with
      | emptyArray => cases h; cases hts
      | array ts'' _ hp => exact .cons _ _ _ _ .array ((ih ts'' ws hp h).append (.cons _ _ _ _ .arrayEnd .nil))
  · intro ts' w hp hc
    cases hc with
    | object _ ws h =>
      cases h
      cases hp with
      | emptyObject => exact .cons _ _ _ _ .object (.cons _ _ _ _ .objectEnd .nil)
      | object _ _ h => cases h
  · intro ts vs hts ih ts' w hp hc
    cases hc with
    | object _ ws h =>
      cases hp with
      | emptyObject => cases h; cases hts
      | object ts'' _ hp => exact .cons _ _ _ _ .object ((ih ts'' ws hp h).append (.cons _ _ _ _ .objectEnd .nil))
  · intro ts v _ ih ts' ws hp hc
    cases hc with
    | cons _ w _ _ h1 h2 =>
      cases h2
      cases hp with
      | one _ _ hp => exact ih ts' w hp h1
      | trailing _ _ ht => cases ht
      | cons _ _ _ _ _ hp => cases hp
  · intro ts v htc; cases htc
  · intro ts rest v vs _ hrest ih1 ih2 ts' ws hp hc
    cases hc with
    | cons _ w _ ws h1 h2 =>
      cases hp with
      | one _ _ hp => cases h2; cases hrest
      | trailing _ _ ht => cases ht
      | cons ts1 rest' _ _ hp1 hp2 =>
        exact (ih1 ts1 w hp1 h1).append (.cons _ _ _ _ .comma (ih2 rest' ws hp2 h2))
  · intro ts k v _ ih ts' ws hp hc
    cases hc with
    | cons _ l _ w _ _ hk h1 h2 =>
      cases h2
      cases hp with
      | one ts1 _ _ hp => exact .cons _ _ _ _ (.string k l hk) (.cons _ _ _ _ .colon (ih ts1 w hp h1))
      | trailing _ _ _ ht => cases ht
      | cons _ _ _ _ _ _ hp => cases hp
  · intro ts k v htc; cases htc
  · intro ts rest k v es _ hrest ih1 ih2 ts' ws hp hc
    cases hc with
    | cons _ l _ w _ ws hk h1 h2 =>
      cases hp with
      | one _ _ _ hp => cases h2; cases hrest
      | trailing _ _ _ ht => cases ht
      | cons ts1 rest' _ _ _ hp1 hp2 =>
        exact .cons _ _ _ _ (.string k l hk) (.cons _ _ _ _ .colon
          ((ih1 ts1 w hp1 h1).append (.cons _ _ _ _ .comma (ih2 rest' ws hp2 h2))))

theorem same_depth {v w : Value} (h : SameContent v w) : v.depth = w.depth := by
  refine SameContent.rec
    (motive_1 := fun v w _ => v.depth = w.depth)
    (motive_2 := fun vs ws _ => Value.depthList vs = Value.depthList ws)
    (motive_3 := fun es fs _ => Value.depthEntries es = Value.depthEntries fs)
    rfl (fun _ => rfl) (fun _ _ _ => rfl) (fun _ _ _ => rfl) ?_ ?_ rfl ?_ rfl ?_ h
  · intro vs ws _ ih; simp only [Value.depth, ih]
  · intro vs ws _ ih; simp only [Value.depth, ih]
  · intro v w vs ws _ _ ih1 ih2; simp only [Value.depthList, ih1, ih2]
  · intro k l v w es fs _ _ _ ih1 ih2; simp only [Value.depthEntries, ih1, ih2]

/-- **C85.** If the tokens of two sources are equal one by one and one source is accepted, so is the other under the same
configuration, and the two values are `==`. -/
theorem C85_equal_streams (g g' : Bool) (src src' : List UInt8) (hi : Input g src) (hi' : Input g' src') (ts ts' : List Token)
    (hs : Stream g src ts) (hs' : Stream g' src' ts') (he : EqStreams ts ts') (cfg : ParseConfig) (v : Value)
    (hv : Value.parseWithConfig g src cfg = .ok v) :
    ∃ w, Value.parseWithConfig g' src' cfg = .ok w ∧ v.eq w = .ok true := by
  obtain ⟨us, hu, hp, hd, hr⟩ := (C67_parser_is_tokenizer_and_grammar g src hi cfg v).mp hv
  cases stream_unique hs hu
  obtain ⟨w, hw, hc⟩ := phrase_same hp ts' ((eqStreams_iff (stream_yielded hi hs) (stream_yielded hi' hs')).mp he)
  have hw' : Value.parseWithConfig g' src' cfg = .ok w := by
    refine (C67_parser_is_tokenizer_and_grammar g' src' hi' cfg w).mpr ⟨ts', hs', hw, ?_, ?_⟩
    · intro n hn; rw [← same_depth hc]; exact hd n hn
    · rcases hr with hr | hr
      · exact .inl hr
      · right; cases hc <;> first | exact hr | exact True.intro
  refine ⟨w, hw', ?_⟩
  obtain ⟨b, h1, h2⟩ := C44_eq_of_texts g g' src src' cfg cfg v w hi hi' hv hw'
  rw [h1, h2.mpr hc]

/-- **C85.** Two texts accepted without trailing commas have `==` values exactly if their tokens are equal one by one. -/
theorem C85_streams (g g' : Bool) (src src' : List UInt8) (hi : Input g src) (hi' : Input g' src') (cfg cfg' : ParseConfig)
    (htc : cfg.allowTrailingCommas = false) (htc' : cfg'.allowTrailingCommas = false) (v w : Value)
    (hv : Value.parseWithConfig g src cfg = .ok v) (hw : Value.parseWithConfig g' src' cfg' = .ok w) :
    ∃ ts ts', Stream g src ts ∧ Stream g' src' ts' ∧ (v.eq w = .ok true ↔ EqStreams ts ts') := by
  obtain ⟨ts, hs, hp, _⟩ := (C67_parser_is_tokenizer_and_grammar g src hi cfg v).mp hv
  obtain ⟨ts', hs', hp', _⟩ := (C67_parser_is_tokenizer_and_grammar g' src' hi' cfg' w).mp hw
  refine ⟨ts, ts', hs, hs', ?_⟩
  rw [htc] at hp
  rw [htc'] at hp'
  rw [eqStreams_iff (stream_yielded hi hs) (stream_yielded hi' hs')]
  obtain ⟨b, h1, h2⟩ := C44_eq_of_texts g g' src src' cfg cfg' v w hi hi' hv hw
  rw [h1]
  constructor
  · intro h
    injection h with h
    exact same_phrase hp ts' w hp' (h2.mp h)
  · intro h
    obtain ⟨w', h3, h4⟩ := phrase_same hp ts' h
    rw [(C67_unambiguous false false ts' ts' w w' hp' h3 (List.prefix_refl _)).2, ] at h2
    rw [h2.mpr h4]

/-! ### Errors, kinds, configurations -/

omit [Arch] in
theorem errorKind_eq_iff {δ : Type} (eq : δ → δ → Bool) (he : ∀ x y, eq x y = true ↔ x = y) (a b : ErrorKind δ) :
    a.eq eq b = true ↔ a = b := by
  constructor
  · intro h
    cases a <;> cases b <;> first
      | rfl
      | (simp only [ErrorKind.eq, ErrorKind.discriminant, Bool.and_eq_true, beq_iff_eq] at h; exact absurd h.1 (by decide))
      | (simp only [ErrorKind.eq, Bool.and_eq_true, beq_iff_eq] at h; rw [h.2])
      | (simp only [ErrorKind.eq, Bool.and_eq_true] at h; rw [(he _ _).mp h.2])
  · rintro rfl
    cases a <;> simp [ErrorKind.eq, (he _ _).mpr]

omit [Arch] in
/-- **C85.** Two errors are `==` exactly if kind, payload and offset are the same, provided this is so of the delegate's errors. -/
theorem C85_errors {δ : Type} (eq : δ → δ → Bool) (he : ∀ x y, eq x y = true ↔ x = y) (a b : Error δ) :
    (a.kind.eq eq b.kind = true ↔ a.kind = b.kind) ∧ (a.eq eq b = true ↔ a.offset = b.offset ∧ a.kind = b.kind) := by
  refine ⟨errorKind_eq_iff eq he _ _, ?_⟩
  unfold Error.eq
  rw [Bool.and_eq_true, beq_iff_eq, errorKind_eq_iff eq he]

omit [Arch] in
/-- **C85.** Whatever `==` of the delegate's errors does: two errors of the same kind and offset are `==`, unless they carry
errors of the delegate that are not. -/
theorem C85_delegate_errors {δ : Type} (eq : δ → δ → Bool) (m n : Nat) (x y : δ) (k : ErrorKind δ) (hk : ∀ z, k ≠ .errorFromDelegate z) :
    Error.eq eq ⟨m, .errorFromDelegate x⟩ ⟨n, .errorFromDelegate y⟩ = (m == n && eq x y)
      ∧ Error.eq eq ⟨m, k⟩ ⟨n, .errorFromDelegate y⟩ = false ∧ Error.eq eq ⟨m, .errorFromDelegate x⟩ ⟨n, k⟩ = false
      ∧ Error.eq eq ⟨m, k⟩ ⟨m, k⟩ = true := by
  refine ⟨rfl, ?_, ?_, ?_⟩
  · cases k <;> first | exact absurd rfl (hk _) | simp [Error.eq, ErrorKind.eq, ErrorKind.discriminant]
  · cases k <;> first | exact absurd rfl (hk _) | simp [Error.eq, ErrorKind.eq, ErrorKind.discriminant]
  · cases k <;> first | exact absurd rfl (hk _) | simp [Error.eq, ErrorKind.eq, ErrorKind.discriminant]

omit [Arch] in
/-- **C85.** Kinds and configurations are `==` exactly if they are the same. -/
theorem C85_kinds (j k : JsonKind) (p q : PeekableTokenKind) (c d : ParseConfig) :
    (j.eq k = true ↔ j = k) ∧ (p.eq q = true ↔ p = q) ∧ (c.eq d = true ↔ c = d) := by
  refine ⟨?_, ?_, ?_⟩
  · cases j <;> cases k <;> decide
  · cases p <;> cases q <;> decide
  · obtain ⟨c1, c2, c3⟩ := c
    obtain ⟨d1, d2, d3⟩ := d
    simp [ParseConfig.eq]

omit [Arch] in
theorem discriminant_lt (p : PeekableTokenKind) : p.discriminant < 256 := by cases p <;> decide

/-- **C85.** Of a kind of token, one write of as many bytes as a word has is hashed; the bytes of kinds that differ are different. -/
theorem C85_hash (little : Bool) (p q : PeekableTokenKind) : ∃ b c : List UInt8, b.length * 8 = Arch.bits ∧ c.length * 8 = Arch.bits
    ∧ (b = c ↔ p = q) ∧ ∀ (H : Hasher) (st : H.S), p.hash H little st = H.write st b ∧ q.hash H little st = H.write st c := by
  have len : ∀ n, ((List.range (Arch.bits / 8)).map fun i => UInt8.ofNat (n / 256 ^ i)).length * 8 = Arch.bits := by
    intro n
    rw [List.length_map, List.length_range]
    rcases Arch.bits_eq with h | h <;> rw [h]
  have num : ∀ r : PeekableTokenKind, leNumber ((List.range (Arch.bits / 8)).map fun i => UInt8.ofNat (r.discriminant / 256 ^ i))
      = r.discriminant := by
    intro r
    rw [leNumber_bytes]
    apply Nat.mod_eq_of_lt
    have := discriminant_lt r
    rcases Arch.bits_eq with h | h <;> rw [h] <;> omega
  refine ⟨_, _, ?_, ?_, ?_, fun H st => ⟨rfl, rfl⟩⟩
  · cases little <;> simp only [Bool.false_eq_true, if_false, if_true, List.length_reverse] <;> exact len _
  · cases little <;> simp only [Bool.false_eq_true, if_false, if_true, List.length_reverse] <;> exact len _
  · constructor
    · intro h
      have e : p.discriminant = q.discriminant := by
        rw [← num p, ← num q]
        cases little with
        | true => exact congrArg leNumber h
        | false => exact congrArg leNumber (by simpa using congrArg List.reverse h)
      exact (C85_kinds .null .null p q .new .new).2.1.mp (by unfold PeekableTokenKind.eq; exact beq_iff_eq.mpr e)
    · rintro rfl; rfl

end

section Examples
attribute [local instance] arch64

/-- the tokens of `{"k":[null,1.0]}` in two spellings -/
def cmpEx (key : String) (n : Nat) : List Token :=
  [.object, .string ⟨.json (.borrowed key.toList), ⟨n⟩⟩, .colon, .array, .null, .comma, .number ⟨.borrowed "1.0".toList⟩, .arrayEnd, .objectEnd]

-- the sources of `C85_equal_streams` and `C85_streams`
example : Stream true (b8 "{\"k\":[null,1.0]}") (cmpEx "k" 1) := by unfold Stream; decide +kernel
example : Stream true (b8 " { \"\\u006b\" : [ null, 1.0 ] } ") (cmpEx "\\u006b" (2 ^ 63 + 1)) := by unfold Stream; decide +kernel
example : EqStreams (cmpEx "k" 1) (cmpEx "\\u006b" (2 ^ 63 + 1)) := by
  repeat' first
    | exact .nil
    | (refine .cons _ _ _ _ ?_ ?_; decide +kernel)
example : Token.eq (.number ⟨.borrowed "1.0".toList⟩) (.number ⟨.borrowed "1".toList⟩) = .ok false := by decide +kernel

-- `C85_errors`: an error type whose `==` is identity
example : Error.eq (fun a b : Nat => a == b) ⟨3, .unexpected 0x41⟩ ⟨3, .unexpected 0x42⟩ = false := by decide +kernel
example : ∀ x y : Nat, (fun a b : Nat => a == b) x y = true ↔ x = y := fun _ _ => beq_iff_eq

end Examples

/-! ## Instances: each theorem above applied to a concrete case that meets its hypotheses -/
section Instances
attribute [local instance] arch64

theorem cmpEx_input (s : String) (h : SliceFits (b8 s)) : Input true (b8 s) := ⟨h, fun _ => ⟨_, rfl⟩⟩
theorem cmpEx_stream : Stream true (b8 "{\"k\":[null,1.0]}") (cmpEx "k" 1) := by unfold Stream; decide +kernel
theorem cmpEx_stream2 : Stream true (b8 " { \"\\u006b\" : [ null, 1.0 ] } ") (cmpEx "\\u006b" (2 ^ 63 + 1)) := by unfold Stream; decide +kernel
theorem cmpEx_eq : EqStreams (cmpEx "k" 1) (cmpEx "\\u006b" (2 ^ 63 + 1)) := by
  repeat' first
    | exact .nil
    | (refine .cons _ _ _ _ ?_ ?_; decide +kernel)
theorem cmpEx_parses : ∃ v, Value.parseWithConfig true (b8 "{\"k\":[null,1.0]}") .new = .ok v := Outcome.exists_ok (by decide +kernel)
theorem cmpEx_parses2 : ∃ v, Value.parseWithConfig true (b8 " { \"\\u006b\" : [ null, 1.0 ] } ") .new = .ok v := Outcome.exists_ok (by decide +kernel)
example := C85_equal_streams true true _ _ (cmpEx_input _ (by lit)) (cmpEx_input _ (by lit)) _ _ cmpEx_stream cmpEx_stream2 cmpEx_eq .new _ cmpEx_parses.choose_spec
example := C85_streams true true _ _ (cmpEx_input _ (by lit)) (cmpEx_input _ (by lit)) .new .new rfl rfl _ _ cmpEx_parses.choose_spec cmpEx_parses2.choose_spec
example := C85_tokens_made_up (.string rawLf) (.string jsonLf) (fun s h => by cases h; exact lf_ob.1) (fun s h => by cases h; exact .parsed _ lf_ob.2.1)
example := C85_errors (fun a b : Nat => a == b) (fun _ _ => beq_iff_eq) ⟨3, .errorFromDelegate 7⟩ ⟨3, .unexpected 0x42⟩
example := C85_delegate_errors (fun _ _ : Nat => false) 3 3 1 2 (.unexpected 0x42) nofun
example := C85_kinds .array .object .comma .colon .new .strict
example := C85_hash true .comma .colon
theorem cmpEx_yielded : Yielded (.string ⟨.json (.borrowed "\\u006b".toList), ⟨2 ^ 63 + 1⟩⟩) :=
  ⟨true, b8 " { \"\\u006b\" : [ null, 1.0 ] } ", [.next], .next, cmpEx_input _ (by lit), by decide +kernel⟩
example := C85_tokens _ _ cmpEx_yielded cmpEx_yielded

end Instances
end JustJson
