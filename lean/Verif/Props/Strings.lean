import Verif.Lemmas.Roundtrip
/-! # Strings: C16 – C23, C39, C40, C43 -/

namespace JustJson
open Spec

set_option linter.unusedSectionVars false

section
variable [Arch]

/-! ## C16 -/

/-- **C16.** A string token obtained after any series of calls, also after errors: the source holds, after
whitespace from `offset()` on, a quote, the UTF-8 bytes of a text `t`, a quote, and the call moved just past
it; the token borrows `t`; decoding it gives a text (no panic, no invalid `char`). -/
theorem C16_token_strings_well_formed (g : Bool) (src : List UInt8) (h : Input g src) (cs : List Call) (c : Call)
    (j : JsonString) (hr : (c.run src g (offsetAfter src g cs)).1 = .token (.string j)) :
    (∃ w t post, src = src.take (offsetAfter src g cs) ++ w ++ 0x22 :: (utf8 t ++ 0x22 :: post) ∧ Ws w
      ∧ (c.run src g (offsetAfter src g cs)).2 = offsetAfter src g cs + w.length + (utf8 t).length + 2
      ∧ j.asJsonStr = some (.borrowed t))
    ∧ ∃ s, j.decoded = .ok s := by
  refine ⟨?_, ?_⟩
  · have hl : offsetAfter src g cs ≤ src.length := (history_offset h cs (Nat.zero_le _)).2
    have hlex : ∀ {w : List UInt8} {b : UInt8} {t : List UInt8} {l : Lex} {off' : Nat}, Ws w → l.Valid →
        src.drop (offsetAfter src g cs) = w ++ b :: t →
        Adv src (offsetAfter src g cs + w.length) l.bytes off' → l.token = .string j →
        ∃ w t post, src = src.take (offsetAfter src g cs) ++ w ++ 0x22 :: (utf8 t ++ 0x22 :: post) ∧ Ws w
          ∧ off' = offsetAfter src g cs + w.length + (utf8 t).length + 2
          ∧ j.asJsonStr = some (.borrowed t) := by
      intro w b t l off' hw hv hd ha ht
      cases l with
      | str is =>
        cases ht
        have hu := utf8_bodyChars hv
        refine ⟨w, bodyChars is, src.drop off', ?_, hw, ?_, rfl⟩
        · obtain ⟨h1, h2⟩ := ha
          have h3 : src.drop (offsetAfter src g cs + w.length) = b :: t := by
            rw [← List.drop_drop, hd, List.drop_left]
          rw [h3] at h2
          conv => lhs; rw [← List.take_append_drop (offsetAfter src g cs) src, hd, h2]
          simp [Lex.bytes, strBytes, hu]
        · have := ha.1
          simp [Lex.bytes, strBytes] at this
          rw [hu]
          omega
      | _ => cases ht
    have hc := tok_cases h hl
    cases hc with
    | eof _ hn he hp => cases c <;> simp [Call.run, hn, he, hp] at hr
    | err w b t e off' hw hd hb hlt hle heo hrp hn he hp => cases c <;> simp [Call.run, hn, he, hp] at hr
    | tok w b t l off' hw hd hb hv ha hs hlt hle hn he hp =>
      cases c <;> simp only [Call.run, hn, he, hp] at hr ⊢
      · exact hlex hw hv hd ha (by injection hr)
      · exact hlex hw hv hd ha (by injection hr)
      · cases hr
  · obtain ⟨t, ht⟩ := parsed_text (.token g src cs c j h hr)
    exact ⟨t, ht.decoded⟩

/-- **C16.** No comparison, hash or decoding of strings a client can have panics. -/
theorem C16_no_string_operation_panics (j k : JsonString) (hj : Obtainable j) (hk : Obtainable k) (s : Str)
    (H : Hasher) (st : H.S) :
    (∃ t, j.decoded = .ok t) ∧ (∃ t, j.display = .ok t) ∧ (∃ a, j.decodeIfNeeded = .ok a) ∧ (∃ b, j.eqStr s = .ok b)
    ∧ (∃ b, j.eq k = .ok b) ∧ (∃ o, j.cmp k = .ok o) ∧ (∃ o, j.partialCmp k = .ok o) ∧ (∃ o, j.partialCmpStr s = .ok o)
    ∧ ∃ st', j.hash H st = .ok st' := by
  obtain ⟨t, ht⟩ := obtainable_shape hj
  obtain ⟨u, hu⟩ := obtainable_shape hk
  refine ⟨⟨_, ht.decoded⟩, ⟨_, ht.decoded⟩, ?_, ⟨_, ht.eqStr s⟩, ⟨_, ht.eq hu⟩, ⟨_, ht.cmp hu⟩, ?_, ⟨_, ht.partialCmpStr s⟩, ?_⟩
  · unfold JsonString.decodeIfNeeded
    split
    · split
      · rw [ht.decoded]; exact ⟨_, rfl⟩
      · exact ⟨_, rfl⟩
    · exact ⟨_, rfl⟩
  · unfold JsonString.partialCmp
    rw [ht.cmp hu]
    exact ⟨_, rfl⟩
  · cases hs : j.asStr with
    | none => exact ⟨_, ht.hash_esc hs st⟩
    | some x => exact ⟨_, ht.hash_direct (by rw [hs]; rfl) st⟩

/-! ## C17 -/

/-- **C17.** The lengths tracked for a parsed string: `src` is its JSON source, `text` what it decodes to. -/
theorem C17_parsed_lengths (j : JsonString) (h : Parsed j) :
    ∃ src text, j.asJsonStr = some (.borrowed src) ∧ HasText j text
      ∧ j.decodedLen = (utf8 text).length ∧ j.len = (utf8 src).length
      ∧ (j.asStr = none ↔ 0x5C ∈ utf8 src) ∧ (j.isEmpty = true ↔ text = []) := by
  obtain ⟨is, hv, hl, rfl⟩ := parsed_shape h
  have hu := utf8_bodyChars hv
  refine ⟨bodyChars is, codeText is, rfl, decoded_canon hv hl, canon_expected hv hl, rfl, ?_, ?_⟩
  · rw [hu, ← hasEsc_iff hv]
    have hs : (canonStr is).source = .json (.borrowed (bodyChars is)) := rfl
    unfold JsonString.asStr
    rw [hs]
    simp only [canon_hasEscapes hv hl]
    cases hasEsc is <;> simp
  · have hlen : (canonStr is).len = (bodyBytes is).length := by rw [← hu]; rfl
    unfold JsonString.isEmpty
    rw [hlen, beq_iff_eq]
    cases is with
    | nil => simp [bodyBytes, codeText]
    | cons i is =>
      have := Item.bytes_pos i
      simp [bodyBytes, codeText]
      intro h0
      rw [h0] at this
      simp at this

/-! ## C18 -/

/-- The full claim: a parsed string decodes to what RFC 8259 says. -/
def C18_full : Prop :=
  ∀ (j : JsonString) (is : List Item), Parsed j → ItemsValid is → StrDenotes j is → HasText j (rfcText is)

/-- What a parsed string decodes to, item by item. -/
theorem C18_decoded_items (j : JsonString) (is : List Item) (h : Parsed j) (hv : ItemsValid is) (hd : StrDenotes j is) :
    HasText j (is.map Item.readAs) := by
  obtain ⟨is', hv', hl', rfl⟩ := parsed_shape h
  have := strDenotes_inj hv hv' hd (canonStr_denotes hv')
  subst this
  rw [← codeText_readAs hv]
  exact decoded_canon hv hl'

/-- **C18, partial** (the full claim is false, see `C18_refuted`): a parsed string decodes to what RFC 8259 says
exactly when it has no `\b` and no surrogate pair whose payload has bit 16 set. Missing: those items. -/
theorem C18_decoding_partial (j : JsonString) (is : List Item) (h : Parsed j) (hv : ItemsValid is) (hd : StrDenotes j is) :
    HasText j (rfcText is) ↔ ∀ i ∈ is, ¬ i.Misread := by
  have hr := C18_decoded_items j is h hv hd
  have key : is.map Item.readAs = rfcText is ↔ ∀ i ∈ is, ¬ i.Misread := by
    unfold rfcText
    rw [List.map_inj_left]
    exact ⟨fun h i hi => (readAs_rfc (hv i hi)).mp (h i hi), fun h i hi => (readAs_rfc (hv i hi)).mpr (h i hi)⟩
  rw [← key]
  exact ⟨fun h => hr.unique h, fun h => h ▸ hr⟩

/-- **C18** is false of the code: `"\b"` decodes to U+0007. -/
theorem C18_refuted : ¬ C18_full := by
  intro h
  have hf : SliceFits (utf8 (quoted ['\\', 'b'])) := by
    unfold SliceFits
    rcases (‹Arch›).bits_eq with hb | hb <;> rw [hb] <;> decide +kernel
  have ht : Text false (utf8 (quoted ['\\', 'b'])) (.str [.esc 0x62]) :=
    ⟨[], strBytes [.esc 0x62], [], by simp [Ws], .str _ (by simp [ItemsValid, Item.Valid]), by simp [Ws], rfl⟩
  obtain ⟨j, h1, h2⟩ := (C38_string_ok_iff _ hf).2 _ ht
  have hv : ItemsValid [.esc 0x62] := by simp [ItemsValid, Item.Valid]
  have := (C18_decoding_partial j _ (.single _ _ hf h1) hv h2).mp (h j _ (.single _ _ hf h1) hv h2)
  exact this (.esc 0x62) (List.mem_singleton.mpr rfl) rfl

/-! ## C19 -/

/-- **C19.** `j == s` holds exactly when `j` decodes to `s`. -/
theorem C19_eq_str (j : JsonString) (h : Obtainable j) (s : Str) :
    ∃ b, j.eqStr s = .ok b ∧ (b = true ↔ HasText j s) := by
  obtain ⟨t, ht⟩ := obtainable_shape h
  refine ⟨_, ht.eqStr s, ?_⟩
  rw [decide_eq_true_iff]
  exact ⟨fun he => he ▸ ht.decoded, fun he => HasText.unique ht.decoded he⟩

/-! ## C20 -/

/-- The full claim: `==` is equality of decoded texts. -/
def C20_full : Prop :=
  ∀ (j k : JsonString) (s t : Str), Obtainable j → Obtainable k → HasText j s → HasText k t →
    j.eq k = .ok (decide (s = t))

/-- **C20, partial** (the full claim is false, see `C20_refuted`). What `==` really is: equality of decoded texts and,
if one side is JSON source and the other text in need of escapes, also equality of their JSON lengths. Missing:
texts equal but spelled with different JSON lengths. -/
theorem C20_eq_partial (j k : JsonString) (s t : Str) (hj : Obtainable j) (hk : Obtainable k) (hs : HasText j s)
    (ht : HasText k t) :
    j.eq k = .ok (decide (s = t ∧ (j.asJsonStr.isSome ≠ k.asJsonStr.isSome → j.len = k.len))) := by
  obtain ⟨s', h1⟩ := obtainable_shape hj
  obtain ⟨t', h2⟩ := obtainable_shape hk
  have h1 := h1.hasText hs
  have h2 := h2.hasText ht
  rw [h1.eq h2]
  congr 1
  rw [Bool.eq_iff_iff, decide_eq_true_iff, decide_eq_true_iff]
  unfold mixed
  simp only [bne_iff_ne]

/-- **C20.** For two parsed strings, `==` is equality of decoded texts. -/
theorem C20_eq_parsed (j k : JsonString) (s t : Str) (hj : Parsed j) (hk : Parsed k) (hs : HasText j s) (ht : HasText k t) :
    j.eq k = .ok (decide (s = t)) := by
  rw [C20_eq_partial j k s t (.parsed j hj) (.parsed k hk) hs ht]
  congr 1
  obtain ⟨is, _, _, rfl⟩ := parsed_shape hj
  obtain ⟨is', _, _, rfl⟩ := parsed_shape hk
  rw [Bool.eq_iff_iff, decide_eq_true_iff, decide_eq_true_iff]
  exact ⟨fun h => h.1, fun h => ⟨h, fun hne => absurd rfl hne⟩⟩

/-- **C20.** Equal strings have the same text; `==` is reflexive and symmetric. -/
theorem C20_eq_sound (j k : JsonString) (hj : Obtainable j) (hk : Obtainable k) :
    (j.eq k = .ok true → j.decoded = k.decoded) ∧ j.eq j = .ok true ∧ j.eq k = k.eq j := by
  obtain ⟨s, h1⟩ := obtainable_shape hj
  obtain ⟨t, h2⟩ := obtainable_shape hk
  refine ⟨?_, ?_, ?_⟩
  · intro h
    rw [h1.eq h2] at h
    injection h with h
    rw [decide_eq_true_iff] at h
    rw [h1.decoded, h2.decoded, h.1]
  · rw [h1.eq h1]
    congr 1
    rw [decide_eq_true_iff]
    exact ⟨rfl, fun _ => rfl⟩
  · rw [h1.eq h2, h2.eq h1]
    congr 1
    rw [Bool.eq_iff_iff, decide_eq_true_iff, decide_eq_true_iff]
    have : mixed j k = mixed k j := by unfold mixed; cases j.asJsonStr.isSome <;> cases k.asJsonStr.isSome <;> rfl
    rw [this, show (s = t) = (t = s) from propext eq_comm, show (j.len = k.len) = (k.len = j.len) from propext eq_comm]

/-- text converted from a `&str` that holds one line feed -/
def rawLf : JsonString := ⟨.raw (.borrowed ['\n']), .new true 2⟩
/-- parsed from `"\n"` -/
def jsonLf : JsonString := ⟨.json (.borrowed ['\\', 'n']), .new true 1⟩
/-- parsed from `"\u000a"` -/
def jsonLf6 : JsonString := ⟨.json (.borrowed ['\\', 'u', '0', '0', '0', 'a']), .new true 1⟩

end

theorem lf_obtainable (A : Arch) : Obtainable rawLf ∧ Parsed jsonLf ∧ Parsed jsonLf6 := by
  rcases arch_cases A with rfl | rfl
  · letI := arch32
    exact ⟨.fromStr ['\n'] _ (by unfold SliceFits; decide +kernel) (by decide +kernel),
      .single (quoted ['\\', 'n']) _ (by unfold SliceFits; decide +kernel) (Outcome.value_eq (by decide +kernel)),
      .single (quoted ['\\', 'u', '0', '0', '0', 'a']) _ (by unfold SliceFits; decide +kernel) (Outcome.value_eq (by decide +kernel))⟩
  · letI := arch64
    exact ⟨.fromStr ['\n'] _ (by unfold SliceFits; decide +kernel) (by decide +kernel),
      .single (quoted ['\\', 'n']) _ (by unfold SliceFits; decide +kernel) (Outcome.value_eq (by decide +kernel)),
      .single (quoted ['\\', 'u', '0', '0', '0', 'a']) _ (by unfold SliceFits; decide +kernel) (Outcome.value_eq (by decide +kernel))⟩

theorem lf_facts (A : Arch) : HasText rawLf ['\n'] ∧ HasText jsonLf ['\n'] ∧ HasText jsonLf6 ['\n']
    ∧ rawLf.eq jsonLf = .ok true ∧ jsonLf.eq jsonLf6 = .ok true ∧ rawLf.eq jsonLf6 = .ok false
    ∧ rawLf.cmp jsonLf6 = .ok .eq := by
  unfold HasText
  rcases arch_cases A with rfl | rfl <;> decide +kernel

section
variable [Arch]

/-- **C20** is false of the code: a parsed `"\u000a"` differs from `JsonString::from("\n")`. -/
theorem C20_refuted : ¬ C20_full := by
  intro h
  obtain ⟨h1, h2, h3⟩ := lf_obtainable ‹_›
  obtain ⟨t1, t2, t3, e1, e2, e3, _⟩ := lf_facts ‹_›
  rw [h _ _ _ _ h1 (.parsed _ h3) t1 t3] at e3
  cases e3

/-- **C20.** `==` is not transitive. -/
theorem C20_not_transitive : ∃ a b c, Obtainable a ∧ Obtainable b ∧ Obtainable c
    ∧ a.eq b = .ok true ∧ b.eq c = .ok true ∧ a.eq c = .ok false := by
  obtain ⟨h1, h2, h3⟩ := lf_obtainable ‹_›
  obtain ⟨t1, t2, t3, e1, e2, e3, _⟩ := lf_facts ‹_›
  exact ⟨_, _, _, h1, .parsed _ h2, .parsed _ h3, e1, e2, e3⟩

/-! ## C21 -/

/-- **C21.** `cmp` and `partial_cmp` compare the decoded texts by code point. -/
theorem C21_cmp_is_code_point_order (j k : JsonString) (s t : Str) (hj : Obtainable j) (hk : Obtainable k)
    (hs : HasText j s) (ht : HasText k t) :
    ∃ o, j.cmp k = .ok o ∧ j.partialCmp k = .ok (some o) ∧ Compares o s t := by
  obtain ⟨s', h1⟩ := obtainable_shape hj
  obtain ⟨t', h2⟩ := obtainable_shape hk
  have h1 := h1.hasText hs
  have h2 := h2.hasText ht
  refine ⟨_, h1.cmp h2, ?_, cmpChars_compares s t⟩
  unfold JsonString.partialCmp
  rw [h1.cmp h2]
  rfl

/-- **C21.** So does `partial_cmp` against a `&str`. -/
theorem C21_cmp_str (j : JsonString) (s t : Str) (hj : Obtainable j) (hs : HasText j s) :
    ∃ o, j.partialCmpStr t = .ok (some o) ∧ Compares o s t := by
  obtain ⟨s', h1⟩ := obtainable_shape hj
  have h1 := h1.hasText hs
  exact ⟨_, h1.partialCmpStr t, cmpChars_compares s t⟩

/-- **C21.** The code point order is a strict total order, and is the order of `str` (bytewise). -/
theorem C21_total_order : (∀ a b c, CpLt a b → CpLt b c → CpLt a c) ∧ (∀ a, ¬ CpLt a a)
    ∧ (∀ a b, CpLt a b ∨ a = b ∨ CpLt b a) ∧ ∀ a b, Compares (cmpStr a b) a b := by
  refine ⟨fun a b c => CpLt.trans, fun a => CpLt.irrefl, fun a b => ?_, cmpStr_compares⟩
  obtain ⟨h1, h2, h3⟩ := cmpChars_compares a b
  cases h : cmpChars a b with
  | lt => exact .inl (h1.mp h)
  | eq => exact .inr (.inl (h2.mp h))
  | gt => exact .inr (.inr (h3.mp h))

/-! ## C22 -/

/-- The full claim: `cmp` says `Equal` exactly when `==` holds. -/
def C22_full : Prop := ∀ j k : JsonString, Obtainable j → Obtainable k → (j.cmp k = .ok .eq ↔ j.eq k = .ok true)

/-- **C22, partial** (the full claim is false, see `C22_refuted`): `==` implies `Equal`; the converse holds for two
JSON representations, for two raw ones, and for equal JSON lengths. Missing: the converse for mixed
representations. -/
theorem C22_ord_eq_partial (j k : JsonString) (hj : Obtainable j) (hk : Obtainable k) :
    (j.eq k = .ok true → j.cmp k = .ok .eq)
    ∧ ((j.asJsonStr.isSome = k.asJsonStr.isSome ∨ j.len = k.len) → j.cmp k = .ok .eq → j.eq k = .ok true) := by
  obtain ⟨s, h1⟩ := obtainable_shape hj
  obtain ⟨t, h2⟩ := obtainable_shape hk
  have hc := (cmpChars_compares s t).2.1
  rw [h1.cmp h2, h1.eq h2]
  refine ⟨?_, ?_⟩
  · intro h
    injection h with h
    rw [decide_eq_true_iff] at h
    rw [hc.mpr h.1]
  · intro hor h
    injection h with h
    congr 1
    rw [decide_eq_true_iff]
    refine ⟨hc.mp h, fun hm => ?_⟩
    rcases hor with hor | hor
    · unfold mixed at hm
      rw [hor] at hm
      simp at hm
    · exact hor

/-- **C22, the exact condition.** `==` holds if and only if `cmp` says `Equal` and, should one be JSON source and the
other raw text, their JSON lengths agree. -/
theorem C22_exact_partial (j k : JsonString) (hj : Obtainable j) (hk : Obtainable k) :
    j.eq k = .ok true ↔ (j.cmp k = .ok .eq ∧ (j.asJsonStr.isSome ≠ k.asJsonStr.isSome → j.len = k.len)) := by
  obtain ⟨s, h1⟩ := obtainable_shape hj
  obtain ⟨t, h2⟩ := obtainable_shape hk
  rw [C20_eq_partial j k s t hj hk h1.decoded h2.decoded, h1.cmp h2]
  have hc := (cmpChars_compares s t).2.1
  constructor
  · intro h
    injection h with h
    rw [decide_eq_true_iff] at h
    exact ⟨by rw [hc.mpr h.1], h.2⟩
  · rintro ⟨h, h'⟩
    injection h with h
    rw [decide_eq_true (show s = t ∧ _ from ⟨hc.mp h, h'⟩)]

/-- **C22.** For two parsed strings `cmp` and `==` agree. -/
theorem C22_ord_eq_parsed (j k : JsonString) (hj : Parsed j) (hk : Parsed k) :
    j.cmp k = .ok .eq ↔ j.eq k = .ok true := by
  have h := C22_ord_eq_partial j k (.parsed j hj) (.parsed k hk)
  refine ⟨h.2 (.inl ?_), h.1⟩
  obtain ⟨is, _, _, rfl⟩ := parsed_shape hj
  obtain ⟨is', _, _, rfl⟩ := parsed_shape hk
  rfl

/-- **C22** is false of the code. -/
theorem C22_refuted : ¬ C22_full := by
  intro h
  obtain ⟨h1, h2, h3⟩ := lf_obtainable ‹_›
  obtain ⟨_, _, _, _, _, e3, e4⟩ := lf_facts ‹_›
  have := (h _ _ h1 (.parsed _ h3)).mp e4
  rw [e3] at this
  cases this

/-! ## C23 -/

/-- The full claim: equal strings feed the same to every hasher. -/
def C23_full : Prop :=
  ∀ (H : Hasher) (st : H.S) (j k : JsonString), Obtainable j → Obtainable k → j.eq k = .ok true → j.hash H st = k.hash H st

/-- **C23, partial** (the full claim is false, see `C23_refuted`): with a hasher that sees only the bytes and not how they
are split into calls, a string hashes like the `str` it decodes to. Missing: hashers sensitive to the split. -/
theorem C23_hash_is_str_hash_partial (H : Hasher) (hc : H.Chunkless) (st : H.S) (j : JsonString) (hj : Obtainable j)
    (t : Str) (ht : HasText j t) : j.hash H st = .ok (hashStr H t st) := by
  obtain ⟨s, h1⟩ := obtainable_shape hj
  exact (h1.hasText ht).hash_chunkless hc st

/-- **C23.** So, with such a hasher, equal strings hash alike. -/
theorem C23_hash_consistent_partial (H : Hasher) (hc : H.Chunkless) (st : H.S) (j k : JsonString) (hj : Obtainable j)
    (hk : Obtainable k) (he : j.eq k = .ok true) : j.hash H st = k.hash H st := by
  obtain ⟨s, h1⟩ := obtainable_shape hj
  have h2 : HasText k s := by
    show k.decoded = _
    rw [← (C20_eq_sound j k hj hk).1 he, h1.decoded]
  rw [C23_hash_is_str_hash_partial H hc st j hj s h1.decoded, C23_hash_is_str_hash_partial H hc st k hk s h2]

/-- **C23.** With any hasher: a string that needs no decoding hashes like its text, and strings that are both in need of
decoding hash alike if equal. -/
theorem C23_any_hasher_partial (H : Hasher) (st : H.S) (j k : JsonString) (hj : Obtainable j) (hk : Obtainable k) (t : Str)
    (ht : HasText j t) :
    (j.asStr ≠ none → j.hash H st = .ok (hashStr H t st))
    ∧ (j.asStr = none → k.asStr = none → j.eq k = .ok true → j.hash H st = k.hash H st) := by
  obtain ⟨s, h1⟩ := obtainable_shape hj
  have h1 := h1.hasText ht
  refine ⟨fun h => h1.hash_direct (by cases hs : j.asStr with | none => exact absurd hs h | some x => rfl) st, fun h3 h4 he => ?_⟩
  obtain ⟨u, h2⟩ := obtainable_shape hk
  have h5 : HasText k t := by
    show k.decoded = _
    rw [← (C20_eq_sound j k hj hk).1 he, h1.decoded]
  rw [h1.hash_esc h3, (h2.hasText h5).hash_esc h4]

end

/-- `JsonString::from("a\nb")` -/
def rawAlfB [Arch] : JsonString := ⟨.raw (.borrowed ['a', '\n', 'b']), .new true 4⟩
/-- parsed from `"a\nb"` -/
def jsonAlfB [Arch] : JsonString := ⟨.json (.borrowed ['a', '\\', 'n', 'b']), .new true 3⟩

theorem alfb_facts (A : Arch) : Obtainable rawAlfB ∧ Parsed jsonAlfB ∧ rawAlfB.eq jsonAlfB = .ok true
    ∧ JsonString.hash recordingHasher rawAlfB ([] : List (List UInt8)) = .ok [[97, 10, 98], [255]]
    ∧ JsonString.hash recordingHasher jsonAlfB ([] : List (List UInt8)) = .ok [[97], [10], [98], [255]] := by
  rcases arch_cases A with rfl | rfl
  · letI := arch32
    exact ⟨.fromStr ['a', '\n', 'b'] _ (by unfold SliceFits; decide +kernel) (by decide +kernel),
      .single (quoted ['a', '\\', 'n', 'b']) _ (by unfold SliceFits; decide +kernel) (Outcome.value_eq (by decide +kernel)),
      by decide +kernel, by decide +kernel, by decide +kernel⟩
  · letI := arch64
    exact ⟨.fromStr ['a', '\n', 'b'] _ (by unfold SliceFits; decide +kernel) (by decide +kernel),
      .single (quoted ['a', '\\', 'n', 'b']) _ (by unfold SliceFits; decide +kernel) (Outcome.value_eq (by decide +kernel)),
      by decide +kernel, by decide +kernel, by decide +kernel⟩

section
variable [Arch]

/-- **C23** is false of the code for hashers that see the calls. -/
theorem C23_refuted : ¬ C23_full := by
  intro h
  obtain ⟨h1, h2, h3, h4, h5⟩ := alfb_facts ‹_›
  have := h recordingHasher ([] : List (List UInt8)) _ _ h1 (.parsed _ h2) h3
  rw [h4, h5] at this
  cases this

theorem record_fold (t : Str) (st : List (List UInt8)) :
    t.foldl (fun (st : recordingHasher.S) ch => recordingHasher.write st (encodeChar ch)) st = st ++ t.map encodeChar := by
  induction t generalizing st with
  | nil => simp
  | cons c t ih => rw [List.foldl_cons, ih]; simp

/-- **C23, the exact condition.** Equal strings hash alike with every hasher if and only if neither or both need
decoding, or their text is a single character. -/
theorem C23_exact_partial (j k : JsonString) (hj : Obtainable j) (hk : Obtainable k) (t : Str) (ht : HasText j t)
    (he : j.eq k = .ok true) :
    (∀ (H : Hasher) (st : H.S), j.hash H st = k.hash H st) ↔ (j.asStr.isSome = k.asStr.isSome ∨ t.length = 1) := by
  have key : ∀ j : JsonString, Obtainable j → HasText j t → ∀ (H : Hasher) (st : H.S), j.hash H st
      = .ok (if j.asStr.isSome then hashStr H t st else H.writeU8 (t.foldl (fun st ch => H.write st (encodeChar ch)) st) 0xff) := by
    intro j hj ht H st
    obtain ⟨s, h1⟩ := obtainable_shape hj
    have h1 := h1.hasText ht
    cases hs : j.asStr with
    | none => rw [h1.hash_esc hs st]; rfl
    | some x => rw [h1.hash_direct (by rw [hs]; rfl) st]; rfl
  have hkt : HasText k t := by
    show k.decoded = _
    rw [← (C20_eq_sound j k hj hk).1 he]
    exact ht
  have diff : ∀ a b : Bool, a ≠ b →
      (Res.ok (if a then hashStr recordingHasher t [] else recordingHasher.writeU8 (t.foldl (fun st ch => recordingHasher.write st (encodeChar ch)) []) 0xff)
      = Res.ok (if b then hashStr recordingHasher t [] else recordingHasher.writeU8 (t.foldl (fun st ch => recordingHasher.write st (encodeChar ch)) []) 0xff))
      → t.length = 1 := by
    intro a b hab h
    rw [record_fold t []] at h
    injection h with h
    have h := congrArg (List.length (α := List UInt8)) h
    unfold hashStr recordingHasher at h
    cases a <;> cases b <;> simp at h hab <;> omega
  constructor
  · intro h
    by_cases hab : j.asStr.isSome = k.asStr.isSome
    · exact .inl hab
    · have h := h recordingHasher []
      rw [key j hj ht, key k hk hkt] at h
      exact .inr (diff _ _ hab h)
  · rintro (h | h) H st
    · rw [key j hj ht, key k hk hkt, h]
    · rw [key j hj ht, key k hk hkt]
      obtain ⟨c, rfl⟩ := List.length_eq_one_iff.mp h
      have : H.writeU8 (List.foldl (fun st ch => H.write st (encodeChar ch)) st [c]) 0xff = hashStr H [c] st := by
        unfold hashStr
        rw [show utf8 [c] = encodeChar c by rw [utf8_cons]; exact List.append_nil _]
        rfl
      rw [this]
      simp

/-! ## C39 -/

/-- **C39.** `is_empty()` is true exactly of strings whose text is empty, and `len()` is zero exactly then. -/
theorem C39_is_empty (j : JsonString) (hj : Obtainable j) (t : Str) (ht : HasText j t) :
    (j.isEmpty = true ↔ t = []) ∧ (j.len = 0 ↔ t = []) := by
  obtain ⟨u, hu⟩ := obtainable_shape hj
  have hs := hu.hasText ht
  have hlen : j.len = 0 ↔ t = [] := by
    cases hs with
    | esc is hv hl he =>
      have hlen : (canonStr is).len = (bodyBytes is).length := by rw [← utf8_bodyChars hv]; rfl
      rw [hlen]
      cases is with
      | nil => simp [bodyBytes, codeText]
      | cons i is =>
        have := Item.bytes_pos i
        simp [bodyBytes, codeText]
        intro h0
        rw [h0] at this
        simp at this
    | plain a n hn =>
      show Str.len a.asStr = 0 ↔ _
      cases a.asStr with
      | nil => simp [Str.len, utf8]
      | cons c s =>
        have := lenUtf8_pos c
        simp only [reduceCtorEq, iff_false]
        rw [Str.len_cons]
        omega
    | raw a h1 h2 h3 =>
      show (JsonStringInfo.new true (cntS a.asStr)).expectedLength = 0 ↔ _
      rw [info_expectedLength h1]
      cases a.asStr with
      | nil => simp [cntS]
      | cons c s =>
        simp only [reduceCtorEq, iff_false, cntS]
        have : 0 < cnt c := by
          unfold cnt
          have := lenUtf8_pos c
          repeat' split
          all_goals omega
        omega
  exact ⟨by unfold JsonString.isEmpty; rw [beq_iff_eq]; exact hlen, hlen⟩

/-- **C39.** The views of a string. `t` is its text. -/
theorem C39_string_views (j : JsonString) (hj : Obtainable j) (t : Str) (ht : HasText j t) :
    -- `as_str()` is the text, unless the JSON source holds a backslash
    (j.asStr = some t ∨ (j.asStr = none ∧ ∃ src, j.asJsonStr = some (.borrowed src) ∧ 0x5C ∈ utf8 src))
    -- `decode_if_needed()` is the text; it hands out what is stored if no decoding is needed
    ∧ (∃ a, j.decodeIfNeeded = .ok a ∧ a.asStr = t
        ∧ (j.asStr = none → a = .owned t) ∧ (j.asStr ≠ none → j.source = .json a ∨ j.source = .raw a))
    -- `escape_if_needed()` is the collected `as_json()`; it hands out what is stored if that is JSON source, an owned copy
    -- if not
    ∧ (∀ r, j.asJson = .ok r ↔ ∃ a, j.escapeIfNeeded = .ok a ∧ a.asStr = r)
    ∧ (∀ a, j.escapeIfNeeded = .ok a → j.source = .json a ∨ (j.asJsonStr = none ∧ ∃ r, a = .owned r))
    -- `as_json_str()` is the JSON source
    ∧ (∀ a, j.asJsonStr = some a → j.asJson = .ok a.asStr)
    -- `Display` prints the text
    ∧ j.display = .ok t := by
  obtain ⟨s, h1⟩ := obtainable_shape hj
  have h1 := h1.hasText ht
  have hd := h1.decoded
  have hesc : ∀ a, j.escapeIfNeeded = .ok a → j.source = .json a ∨ (j.asJsonStr = none ∧ ∃ r, a = .owned r) := by
    intro a ha
    unfold JsonString.escapeIfNeeded at ha
    unfold JsonString.asJsonStr
    cases hs : j.source with
    | json s => rw [hs] at ha; cases ha; exact .inl rfl
    | raw s =>
      rw [hs] at ha
      cases hc : (AsJson.new (.raw s) j.info).collect with
      | panic p => simp only [hc] at ha; cases ha
      | ok r => simp only [hc] at ha; cases ha; exact .inr ⟨rfl, _, rfl⟩
  refine ⟨?_, ?_, ?_, hesc, ?_, hd⟩
  · cases h1 with
    | esc is hv hl he =>
      right
      obtain ⟨h2, h3⟩ := Shape.esc_facts hv hl he
      refine ⟨?_, bodyChars is, rfl, ?_⟩
      · have hs : (canonStr is).source = .json (.borrowed (bodyChars is)) := rfl
        unfold JsonString.asStr
        rw [hs]
        simp [h2]
      · rw [utf8_bodyChars hv, ← hasEsc_iff hv]; exact he
    | plain a n hn =>
      left
      unfold JsonString.asStr
      simp [info_hasEscapes hn]
    | raw a => exact .inl rfl
  · cases h1 with
    | esc is hv hl he =>
      obtain ⟨h2, h3⟩ := Shape.esc_facts hv hl he
      have hs : (canonStr is).source = .json (.borrowed (bodyChars is)) := rfl
      refine ⟨.owned (codeText is), ?_, rfl, fun _ => rfl, fun h => ?_⟩
      · unfold JsonString.decodeIfNeeded
        rw [hs]
        simp only [h2, if_true]
        rw [hd]
        rfl
      · exfalso
        apply h
        unfold JsonString.asStr
        rw [hs]
        simp [h2]
    | plain a n hn =>
      refine ⟨a, ?_, rfl, fun h => ?_, fun _ => .inl rfl⟩
      · unfold JsonString.decodeIfNeeded
        simp [info_hasEscapes hn]
      · unfold JsonString.asStr at h
        simp [info_hasEscapes hn] at h
    | raw a => exact ⟨a, rfl, rfl, (fun h => by cases h), fun _ => .inr rfl⟩
  · intro r
    cases hs : j.source with
    | json a =>
      have : j = ⟨.json a, j.info⟩ := by rw [← hs]
      rw [this, asJson_json]
      unfold JsonString.escapeIfNeeded
      simp
    | raw a =>
      unfold JsonString.escapeIfNeeded JsonString.asJson
      rw [hs]
      simp only []
      cases (AsJson.new (.raw a) j.info).collect <;> simp [AnyStr.asStr]
  · intro a ha
    unfold JsonString.asJsonStr at ha
    cases hs : j.source with
    | json b =>
      rw [hs] at ha
      have : j = ⟨.json b, j.info⟩ := by rw [← hs]
      rw [this, asJson_json]
      injection ha with ha
      rw [ha]
    | raw b => rw [hs] at ha; cases ha

/-! ## C40 -/

/-- **C40.** `AnyStr` is its text: equality, order and hash do not see whether it is owned. -/
theorem C40_ownership_invisible (a b : AnyStr) (H : Hasher) (st : H.S) :
    (a.eq b = true ↔ a.asStr = b.asStr)
    ∧ (∃ o, a.partialCmp b = some o ∧ Compares o a.asStr b.asStr)
    ∧ (a.eq b = true → a.hash H st = b.hash H st)
    ∧ (∀ s, a.eqStr s = true ↔ a.asStr = s)
    ∧ (∀ s, ∃ o, a.partialCmpStr s = some o ∧ Compares o a.asStr s)
    ∧ a.hash H st = hashStr H a.asStr st := by
  refine ⟨?_, ⟨_, rfl, cmpStr_compares _ _⟩, ?_, ?_, fun s => ⟨_, rfl, cmpStr_compares _ _⟩, rfl⟩
  · unfold AnyStr.eq; rw [beq_iff_eq]
  · unfold AnyStr.eq; rw [beq_iff_eq]; intro h; unfold AnyStr.hash; rw [h]
  · intro s; unfold AnyStr.eqStr; rw [beq_iff_eq]

/-! ## C43 -/

/-- **C43.** Flag and length are kept apart as long as the length stays below the top bit. -/
theorem C43_info_packing (e : Bool) (n k : Nat) (h : n + k < 2 ^ (Arch.bits - 1)) :
    (JsonStringInfo.new e n).hasEscapes = e ∧ (JsonStringInfo.new e n).expectedLength = n
    ∧ (∃ i, (JsonStringInfo.new e n).addBytes k = some i ∧ i.hasEscapes = e ∧ i.expectedLength = n + k)
    ∧ (∃ i, (JsonStringInfo.new e n).addBytesFromEscape k = some i ∧ i.hasEscapes = true ∧ i.expectedLength = n + k)
    ∧ (JsonStringInfo.new e n).word < 2 ^ Arch.bits := by
  have h : n + k < LIM := h
  have hn : n < LIM := by omega
  refine ⟨info_hasEscapes hn, info_expectedLength hn, ⟨_, info_addBytes h, info_hasEscapes h, info_expectedLength h⟩,
    ⟨_, info_addEscape h, info_hasEscapes h, info_expectedLength h⟩, ?_⟩
  rw [pow_bits]
  cases e with
  | true => rw [new_true hn]; show LIM + n < _; omega
  | false => rw [new_false]; show n < _; omega

/-- **C43.** Any sequence of additions: the flag is set once one came from an escape, the length is the sum. -/
theorem C43_any_additions (steps : List (Bool × Nat)) (e : Bool) (n : Nat)
    (h : n + (steps.map Prod.snd).sum < 2 ^ (Arch.bits - 1)) :
    ∃ i, steps.foldlM (fun (i : JsonStringInfo) s => if s.1 then i.addBytesFromEscape s.2 else i.addBytes s.2) (.new e n) = some i
      ∧ i.hasEscapes = (e || steps.any Prod.fst) ∧ i.expectedLength = n + (steps.map Prod.snd).sum := by
  induction steps generalizing e n with
  | nil =>
    have hn : n < LIM := by show n < 2 ^ (Arch.bits - 1); simpa using h
    exact ⟨_, rfl, by simp [info_hasEscapes hn], by simp [info_expectedLength hn]⟩
  | cons s steps ih =>
    obtain ⟨f, k⟩ := s
    simp only [List.map_cons, List.sum_cons] at h ⊢
    have hk : n + k < LIM := by show n + k < 2 ^ _; omega
    obtain ⟨i, h1, h2, h3⟩ := ih (e || f) (n + k) (by omega)
    refine ⟨i, ?_, ?_, by omega⟩
    · rw [List.foldlM_cons]
      cases f with
      | true =>
        simp only [if_true]
        rw [info_addEscape hk]
        simpa using h1
      | false =>
        simp only []
        rw [info_addBytes hk]
        simpa using h1
    · rw [h2, List.any_cons, Bool.or_assoc]

end

/-! ## Concrete cases -/

section Examples
attribute [local instance] arch64

/-- a JSON text whose string has plain characters, a short escape, a `\u` escape and a surrogate pair -/
def strEx : List UInt8 := b8 "[\"aé\\n\\u00e9\\ud83d\\ude00\"]"
/-- the string in it -/
def strExJ : JsonString := ⟨.json (.borrowed "aé\\n\\u00e9\\ud83d\\ude00".toList), .new true 10⟩
/-- its items -/
def strExItems : List Item :=
  [.plain 'a', .plain 'é', .esc 0x6E, .uni ⟨0x30, 0x30, 0x65, 0x39⟩, .pair ⟨0x64, 0x38, 0x33, 0x64⟩ ⟨0x64, 0x65, 0x30, 0x30⟩]

-- C16: the second call on a tokenizer over the text yields the string
example : Input false strEx ∧ offsetAfter strEx false [.next] = 1
    ∧ (Call.next.run strEx false (offsetAfter strEx false [.next])).1 = .token (.string strExJ) :=
  ⟨input_bytes (by unfold SliceFits; decide +kernel), by decide +kernel, by decide +kernel⟩

theorem strEx_parsed : Parsed strExJ :=
  .token false strEx [.next] .next _ (input_bytes (by unfold SliceFits; decide +kernel)) (by decide +kernel)

-- C17, C18, C19, C21, C39: it is a parsed string with these items, none misread
example : ItemsValid strExItems := by
  unfold ItemsValid strExItems
  simp only [List.forall_mem_cons, Item.Valid, Hex4.Valid]
  exact ⟨by decide, by decide, by decide, by decide +kernel, by decide +kernel, by simp⟩
example : HasText strExJ ['a', 'é', '\n', 'é', Char.ofNat 0x1F600] ∧ strExJ.decodedLen = 10 ∧ strExJ.asStr = none := by
  unfold HasText; decide +kernel
example : strExJ.eqStr ("aé\né".toList ++ [Char.ofNat 0x1F600]) = .ok true ∧ strExJ.eqStr "aé".toList = .ok false := by decide +kernel
example : strExJ.cmp rawLf = .ok .gt ∧ strExJ.partialCmpStr "aê".toList = .ok (some .lt) := by decide +kernel

-- C20, C22, C23: strings in both representations that are equal (see also `lf_facts`, `alfb_facts`)
example : Obtainable rawLf ∧ Parsed jsonLf ∧ rawLf.eq jsonLf = .ok true ∧ rawLf.cmp jsonLf = .ok .eq :=
  ⟨(lf_obtainable arch64).1, (lf_obtainable arch64).2.1, by decide +kernel, by decide +kernel⟩

/-- A hasher that keeps the bytes written satisfies `Chunkless`. -/
example : Hasher.Chunkless { S := List UInt8, write := fun st bs => st ++ bs, writeU8 := fun st b => st ++ [b] } :=
  ⟨fun st => List.append_nil st, fun st a b => List.append_assoc st a b⟩

end Examples

/-! ## Instances: each theorem above applied to a concrete case that meets its hypotheses -/
section Instances
attribute [local instance] arch64

theorem strEx_obtainable : Obtainable strExJ := .parsed _ strEx_parsed
theorem strEx_text : HasText strExJ ['a', 'é', '\n', 'é', Char.ofNat 0x1F600] := by unfold HasText; decide +kernel
theorem strEx_items : ItemsValid strExItems := by
  unfold ItemsValid strExItems
  simp only [List.forall_mem_cons, Item.Valid, Hex4.Valid]
  exact ⟨by decide, by decide, by decide, by decide +kernel, by decide +kernel, by simp⟩
theorem strEx_denotes : StrDenotes strExJ strExItems := by
  exact ⟨_, rfl, by decide +kernel⟩
theorem jsonLf_text : HasText jsonLf ['\n'] := by unfold HasText; decide +kernel
theorem rawLf_text : HasText rawLf ['\n'] := by unfold HasText; decide +kernel
theorem lf_ob : Obtainable rawLf ∧ Parsed jsonLf ∧ Parsed jsonLf6 := lf_obtainable arch64
/-- a hasher that keeps the bytes written -/
def keeper : Hasher := { S := List UInt8, write := fun st bs => st ++ bs, writeU8 := fun st b => st ++ [b] }
theorem keeper_chunkless : keeper.Chunkless := ⟨fun st => List.append_nil st, fun st a b => List.append_assoc st a b⟩

example := C16_token_strings_well_formed false strEx (by lit) [.next] .next strExJ (by decide +kernel)
example := C16_no_string_operation_panics strExJ rawLf strEx_obtainable lf_ob.1 "aé".toList keeper []
example := C17_parsed_lengths strExJ strEx_parsed
example := C18_decoded_items strExJ strExItems strEx_parsed strEx_items strEx_denotes
example := C18_decoding_partial strExJ strExItems strEx_parsed strEx_items strEx_denotes
example := C19_eq_str strExJ strEx_obtainable "aé".toList
example := C20_eq_partial rawLf jsonLf ['\n'] ['\n'] lf_ob.1 (.parsed _ lf_ob.2.1) rawLf_text jsonLf_text
example := C20_eq_parsed jsonLf strExJ ['\n'] _ lf_ob.2.1 strEx_parsed jsonLf_text strEx_text
example := C20_eq_sound rawLf jsonLf lf_ob.1 (.parsed _ lf_ob.2.1)
example := C21_cmp_is_code_point_order rawLf strExJ ['\n'] _ lf_ob.1 strEx_obtainable rawLf_text strEx_text
example := C21_cmp_str strExJ _ "aê".toList strEx_obtainable strEx_text
example := C22_ord_eq_partial rawLf jsonLf lf_ob.1 (.parsed _ lf_ob.2.1)
example := C22_exact_partial rawLf jsonLf lf_ob.1 (.parsed _ lf_ob.2.1)
example := C22_ord_eq_parsed jsonLf strExJ lf_ob.2.1 strEx_parsed
example := C23_hash_is_str_hash_partial keeper keeper_chunkless [] strExJ strEx_obtainable _ strEx_text
example := C23_hash_consistent_partial keeper keeper_chunkless [] rawLf jsonLf lf_ob.1 (.parsed _ lf_ob.2.1) (by decide +kernel)
example := C23_any_hasher_partial keeper [] strExJ strExJ strEx_obtainable strEx_obtainable _ strEx_text
example := C23_exact_partial rawLf jsonLf lf_ob.1 (.parsed _ lf_ob.2.1) _ rawLf_text (by decide +kernel)
example := C39_is_empty strExJ strEx_obtainable _ strEx_text
example := C39_string_views strExJ strEx_obtainable _ strEx_text
example := C40_ownership_invisible (.owned ['x']) (.borrowed ['x']) keeper []
example := C43_info_packing true 5 7 (by decide +kernel)
example := C43_any_additions [(false, 3), (true, 2)] false 1 (by decide +kernel)

end Instances
end JustJson
