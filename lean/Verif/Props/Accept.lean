import Verif.Props.Ex
/-! # Which texts are accepted, and as what: C01 – C05, C07, C12, C33, C42 -/

namespace JustJson
open Spec

set_option linter.unusedSectionVars false

section
variable [Arch]

/-! ## C01 -/

/-- **C01.** `Parser::validate_json_bytes` returns `Ok(k)` exactly when the bytes are a JSON text nested at
most 128 levels deep whose root has kind `k`. -/
theorem C01_validate_accepts_iff (src : List UInt8) (h : SliceFits src) (k : JsonKind) :
    validateJsonBytes src = .ok k ↔ ∃ j, Text false src j ∧ j.depth ≤ 128 ∧ j.kind = k := by
  have hi := input_bytes h
  unfold validateJsonBytes
  rw [validate_eq hi]
  constructor
  · intro hk
    rcases value_cases (cfg := .new) hi with ⟨j, h1, h2⟩ | ⟨e, h1, h2, _⟩
    · rw [h2] at hk
      injection hk with hk
      exact ⟨j, h1.1, h1.2.1 128 rfl, by rw [← kind_ofJson]; exact hk⟩
    · rw [h2] at hk; cases hk
  · rintro ⟨j, h1, h2, rfl⟩
    have : Accepted .new src j := ⟨h1, fun n hn => by injection hn with hn; omega, .inl rfl⟩
    rw [accepted_ok hi this]
    show Outcome.ok _ = _
    rw [kind_ofJson]

/-- **C01**, for `Parser::validate_json` on a `&str`. -/
theorem C01_validate_str_accepts_iff (s : Str) (h : SliceFits (utf8 s)) (k : JsonKind) :
    validateJson s = .ok k ↔ ∃ j, Text false (utf8 s) j ∧ j.depth ≤ 128 ∧ j.kind = k := by
  have hi := input_str h
  unfold validateJson
  rw [validate_eq hi]
  constructor
  · intro hk
    rcases value_cases (cfg := .new) hi with ⟨j, h1, h2⟩ | ⟨e, h1, h2, _⟩
    · rw [h2] at hk
      injection hk with hk
      exact ⟨j, h1.1, h1.2.1 128 rfl, by rw [← kind_ofJson]; exact hk⟩
    · rw [h2] at hk; cases hk
  · rintro ⟨j, h1, h2, rfl⟩
    have : Accepted .new (utf8 s) j := ⟨h1, fun n hn => by injection hn with hn; omega, .inl rfl⟩
    rw [accepted_ok hi this]
    show Outcome.ok _ = _
    rw [kind_ofJson]

/-- **C01**, for any configuration and both input forms (`g = true`: `&str`). -/
theorem C01_validate_with_config_accepts_iff (g : Bool) (src : List UInt8) (h : Input g src) (cfg : ParseConfig)
    (k : JsonKind) :
    validateWithConfig g src cfg = .ok k ↔ ∃ j, Accepted cfg src j ∧ j.kind = k := by
  rw [validate_eq h]
  constructor
  · intro hk
    rcases value_cases (cfg := cfg) h with ⟨j, h1, h2⟩ | ⟨e, h1, h2, _⟩
    · rw [h2] at hk
      injection hk with hk
      exact ⟨j, h1, by rw [← kind_ofJson]; exact hk⟩
    · rw [h2] at hk; cases hk
  · rintro ⟨j, h1, rfl⟩
    rw [accepted_ok h h1]
    show Outcome.ok _ = _
    rw [kind_ofJson]

/-! ## C02 -/

/-- **C02**, soundness: an accepted text is one of the grammar that the configuration permits, it denotes
exactly one tree, and the `Value` is that tree: nesting, elements, entries (duplicates included) in source
order, string bodies and numbers as the exact source bytes. -/
theorem C02_value_is_denoted_tree (g : Bool) (src : List UInt8) (h : Input g src) (cfg : ParseConfig) (v : Value)
    (hv : Value.parseWithConfig g src cfg = .ok v) :
    (∃ j, Accepted cfg src j) ∧ ∀ j, Text cfg.allowTrailingCommas src j → Denotes v j := by
  obtain ⟨j, hj, rfl⟩ := (value_ok_iff h).mp hv
  refine ⟨⟨j, hj⟩, fun j' hj' => ?_⟩
  rw [← text_unique h.lim hj.1 hj']
  exact ofJson_denotes.1 j (text_valid hj.1)

/-- **C02**, completeness: each text of the grammar that the configuration permits is accepted. -/
theorem C02_value_complete (g : Bool) (src : List UInt8) (h : Input g src) (cfg : ParseConfig) (j : Json)
    (hj : Accepted cfg src j) :
    ∃ v, Value.parseWithConfig g src cfg = .ok v ∧ Denotes v j :=
  ⟨ofJson j, accepted_ok h hj, ofJson_denotes.1 j (text_valid hj.1)⟩

/-- **C02**: the tree a text denotes is unique, so "the denoted tree" is meaningful. -/
theorem C02_text_unambiguous (tc : Bool) (src : List UInt8) (h : SliceFits src) (j j' : Json)
    (hj : Text tc src j) (hj' : Text tc src j') : j = j' := text_unique (fits_lim.mp h) hj hj'

/-- **C02**: and a `Value` denotes at most one (well-formed) tree, so nothing is lost. -/
theorem C02_denotes_injective (tc : Bool) (s s' : List UInt8) (v : Value) (j j' : Json) (hj : Text tc s j)
    (hj' : Text tc s' j') (h : Denotes v j) (h' : Denotes v j') : j = j' :=
  denotes_inj.1 j (text_valid hj) v j' (text_valid hj') h h'

/-! ## C03 -/

/-- **C03.** With the option the accepted texts are those of the grammar with one optional trailing comma in
non-empty containers; without it those of the plain grammar. -/
theorem C03_trailing_commas_grammar (g : Bool) (src : List UInt8) (h : Input g src) (cfg : ParseConfig) :
    ((∃ v, Value.parseWithConfig g src { cfg with allowTrailingCommas := true } = .ok v)
      ↔ ∃ j, Text true src j ∧ DepthOk cfg j ∧ RootOk cfg j)
    ∧ ((∃ v, Value.parseWithConfig g src { cfg with allowTrailingCommas := false } = .ok v)
      ↔ ∃ j, Text false src j ∧ DepthOk cfg j ∧ RootOk cfg j) := by
  constructor
  · constructor
    · rintro ⟨v, hv⟩
      obtain ⟨j, hj, _⟩ := (value_ok_iff h).mp hv
      exact ⟨j, hj⟩
    · rintro ⟨j, hj⟩
      exact ⟨_, (value_ok_iff h).mpr ⟨j, hj, rfl⟩⟩
  · constructor
    · rintro ⟨v, hv⟩
      obtain ⟨j, hj, _⟩ := (value_ok_iff h).mp hv
      exact ⟨j, hj⟩
    · rintro ⟨j, hj⟩
      exact ⟨_, (value_ok_iff h).mpr ⟨j, hj, rfl⟩⟩

/-- **C03.** What is accepted without the option is accepted with it, as the same `Value`. -/
theorem C03_strict_implies_lenient (g : Bool) (src : List UInt8) (h : Input g src) (cfg : ParseConfig) (v : Value)
    (hv : Value.parseWithConfig g src { cfg with allowTrailingCommas := false } = .ok v) :
    Value.parseWithConfig g src { cfg with allowTrailingCommas := true } = .ok v := by
  obtain ⟨j, ⟨h1, h2, h3⟩, rfl⟩ := (value_ok_iff h).mp hv
  exact accepted_ok h ⟨text_mono (by simp) h1, h2, h3⟩

/-- **C03.** The option changes nothing except to lift `IllegalTrailingComma`: without it a parse returns what
it returns with it, or `IllegalTrailingComma`. Any input, accepted or not. -/
theorem C03_only_difference_is_illegal_trailing_comma (g : Bool) (src : List UInt8) (cfg : ParseConfig) :
    Value.parseWithConfig g src { cfg with allowTrailingCommas := false }
        = Value.parseWithConfig g src { cfg with allowTrailingCommas := true }
      ∨ ∃ off, Value.parseWithConfig g src { cfg with allowTrailingCommas := false } = .err ⟨off, .illegalTrailingComma⟩ := by
  unfold Value.parseWithConfig
  rcases parse_trailing (src := src) (g := g) cfg with h | ⟨e, s, h, hk⟩
  · left
    have h : parseBytes g src { cfg with allowTrailingCommas := false } valueParser () = _ := h
    rw [h]
  · right
    refine ⟨e.offset, ?_⟩
    have h : parseBytes g src { cfg with allowTrailingCommas := false } valueParser () = _ := h
    rw [h, ← hk]
    rfl

/-- **C03.** If the input begins with a value that is well formed but for trailing commas (and not too deep),
the parse without the option fails with `IllegalTrailingComma`, whatever follows. -/
theorem C03_illegal_trailing_comma (g : Bool) (cfg : ParseConfig) (w b r : List UInt8) (j : Json)
    (h : Input g (w ++ b ++ r)) (hw : Ws w) (hb : GValue true b j) (hd : DepthOk cfg j)
    (hn : ∀ j', ¬ GValue false b j') :
    ∃ off, Value.parseWithConfig g (w ++ b ++ r) { cfg with allowTrailingCommas := false }
      = .err ⟨off, .illegalTrailingComma⟩ := by
  have hst : StopAfter j r := by
    cases hb with
    | num n hv => exact absurd (GValue.num n hv) (hn _)
    | _ => exact True.intro
  have hl := value_root (g := g) (cfg := lenientC cfg) h.lim hw hb hst rfl
  unfold Cmp at hl
  have hdl : DepthOk (lenientC cfg) j := hd
  rw [if_neg (depthOk_iff.mpr hdl)] at hl
  have hs := (vp_sound (g := g) (cfg := strictC cfg) h.lim (parseFuel (w ++ b ++ r)))
    |>.1 ⟨0, (), cfg.recursionLimit.getD USIZE_MAX⟩ (Nat.zero_le _) h.fit
  unfold Value.parseWithConfig parseBytes parseM
  rcases (run_trailing (g := g) (src := w ++ b ++ r) cfg (parseFuel (w ++ b ++ r))).1
    ⟨0, (), cfg.recursionLimit.getD USIZE_MAX⟩ with ht | ⟨e, s, ht, hk⟩
  · rw [ht, hl] at hs
    obtain ⟨w1, b1, j1, hw1, hb1, ha, -⟩ := hs
    exfalso
    have h1 : w ++ b = w1 ++ b1 := by
      have e1 := ha.take
      simp only [Nat.sub_zero, List.drop_zero] at e1
      rw [← e1, ← List.length_append, List.take_left]
    have h2 : b = b1 := by
      obtain ⟨c, t, rfl, hc, _⟩ := gvalue_head hb
      obtain ⟨c', t', rfl, hc', _⟩ := gvalue_head hb1
      exact ws_cancel hw hw1 hc hc' h1
    rw [h2] at hn
    exact hn j1 hb1
  · refine ⟨e.offset, ?_⟩
    have ht : readTokens g (w ++ b ++ r) { cfg with allowTrailingCommas := false } valueParser _ _ = _ := ht
    rw [M.bind_err ht, ← hk]
    rfl

/-! ## C04 -/

/-- **C04.** With a limit `n` a text is accepted iff it is accepted without limit and its value nests arrays and
objects at most `n` deep (the maximum over all paths, so siblings do not add up); the `Value` is the same. -/
theorem C04_recursion_limit_exact (g : Bool) (src : List UInt8) (h : Input g src) (cfg : ParseConfig) (n : Nat)
    (v : Value) :
    Value.parseWithConfig g src (cfg.withRecursionLimit n) = .ok v
      ↔ Value.parseWithConfig g src cfg.withoutRecursionLimit = .ok v ∧ v.depth ≤ n := by
  rw [value_ok_iff h, value_ok_iff h]
  constructor
  · rintro ⟨j, ⟨h1, h2, h3⟩, rfl⟩
    refine ⟨⟨j, ⟨h1, fun n hn => (by cases hn), h3⟩, rfl⟩, ?_⟩
    rw [depth_ofJson.1]
    exact h2 n rfl
  · rintro ⟨⟨j, ⟨h1, h2, h3⟩, rfl⟩, hd⟩
    refine ⟨j, ⟨h1, fun m hm => ?_, h3⟩, rfl⟩
    cases hm
    rw [depth_ofJson.1] at hd
    exact hd

/-- **C04.** A well-formed text nested deeper than the limit fails with `RecursionLimitReached`. -/
theorem C04_too_deep (g : Bool) (src : List UInt8) (h : Input g src) (cfg : ParseConfig) (n : Nat)
    (j : Json) (hj : Text cfg.allowTrailingCommas src j) (hd : n < j.depth) :
    ∃ off, Value.parseWithConfig g src (cfg.withRecursionLimit n) = .err ⟨off, .recursionLimitReached⟩ := by
  obtain ⟨w, b, w', hw, hb, hw', hs⟩ := hj
  obtain ⟨e, s, he, hk⟩ := value_deep (g := g) (cfg := cfg.withRecursionLimit n) h.lim hw hb
    (stopAfter_ws hw' j) hs (fun hd' => by have := hd' n rfl; omega)
  refine ⟨e.offset, ?_⟩
  unfold Value.parseWithConfig
  rw [he, ← hk]
  rfl

/-- **C04**, in terms of results: too deep a text that is accepted without limit. -/
theorem C04_too_deep_value (g : Bool) (src : List UInt8) (h : Input g src) (cfg : ParseConfig) (n : Nat)
    (v : Value) (hv : Value.parseWithConfig g src cfg.withoutRecursionLimit = .ok v) (hd : n < v.depth) :
    ∃ off, Value.parseWithConfig g src (cfg.withRecursionLimit n) = .err ⟨off, .recursionLimitReached⟩ := by
  obtain ⟨j, hj, rfl⟩ := (value_ok_iff h).mp hv
  rw [depth_ofJson.1] at hd
  exact C04_too_deep g src h cfg n j hj.1 hd

/-! ## C05 -/

/-- **C05.** With `allow_all_types_at_root = false` a text is accepted iff it is accepted with the option set
and its root is an object or an array; the `Value` is the same. -/
theorem C05_root_restriction (g : Bool) (src : List UInt8) (h : Input g src) (cfg : ParseConfig) (v : Value) :
    Value.parseWithConfig g src (cfg.allowingAllTypesAtRoot false) = .ok v
      ↔ Value.parseWithConfig g src (cfg.allowingAllTypesAtRoot true) = .ok v ∧ v.IsContainer := by
  rw [value_ok_iff h, value_ok_iff h]
  constructor
  · rintro ⟨j, ⟨h1, h2, h3⟩, rfl⟩
    refine ⟨⟨j, ⟨h1, h2, .inl rfl⟩, rfl⟩, ?_⟩
    rcases h3 with h3 | h3
    · cases h3
    · exact (container_ofJson j).mpr h3
  · rintro ⟨⟨j, ⟨h1, h2, h3⟩, rfl⟩, hd⟩
    exact ⟨j, ⟨h1, h2, .inr ((container_ofJson j).mp hd)⟩, rfl⟩

/-- **C05.** When the root value read is a scalar the error is `PayloadsShouldBeObjectOrArray` at offset 0,
whatever follows it (what follows a number must not continue that number). -/
theorem C05_scalar_root_error (g : Bool) (cfg : ParseConfig) (w b r : List UInt8) (j : Json)
    (h : Input g (w ++ b ++ r)) (hw : Ws w) (hb : GValue cfg.allowTrailingCommas b j) (hc : ¬ j.IsContainer)
    (hr : (∃ n, j = .num n) → ∀ c, r.head? = some c → ¬ IsDigit c ∧ c ≠ 0x2E ∧ c ≠ 0x65 ∧ c ≠ 0x45) :
    Value.parseWithConfig g (w ++ b ++ r) (cfg.allowingAllTypesAtRoot false)
      = .err ⟨0, .payloadsShouldBeObjectOrArray⟩ := by
  have hst : StopAfter j r := by
    cases j with
    | num n =>
      intro c hc
      obtain ⟨h1, h2, h3, h4⟩ := hr ⟨n, rfl⟩ c hc
      exact ⟨fun _ => h1, fun _ => ⟨h3, h4, fun _ => h1, fun _ => ⟨h2, fun _ => h1⟩⟩⟩
    | _ => exact True.intro
  have hd : DepthOk (cfg.allowingAllTypesAtRoot false) j := by
    intro n _
    cases j <;> first | exact Nat.zero_le _ | exact absurd True.intro hc
  obtain ⟨s, he⟩ := value_scalar (g := g) (cfg := cfg.allowingAllTypesAtRoot false) h.lim hw hb hst rfl hd rfl hc
  unfold Value.parseWithConfig
  rw [he]
  rfl

/-! ## C07 -/

/-- **C07.** `validate` is `Value` parsing with the value replaced by its kind: same inputs accepted, same
error kind and offset. -/
theorem C07_validate_agrees (g : Bool) (src : List UInt8) (h : Input g src) (cfg : ParseConfig) :
    validateWithConfig g src cfg = (Value.parseWithConfig g src cfg).map Value.kind := validate_eq h

/-- **C07.** `Document` parsing is `Value` parsing with the value replaced by its node list: same inputs
accepted, same error kind and offset. -/
theorem C07_document_agrees (g : Bool) (src : List UInt8) (h : Input g src) (cfg : ParseConfig) :
    docFromJsonWithConfig none g src cfg = (Value.parseWithConfig g src cfg).map flatten := by
  rcases doc_cases (cap := none) (cfg := cfg) h with ⟨v, h1, ⟨_, h2⟩ | ⟨h2, _⟩⟩ | ⟨e, h1, h2 | ⟨h2, _⟩⟩
  · rw [h1, h2]; rfl
  · exact absurd (fun N hN => by cases hN) h2
  · rw [h1, h2]; rfl
  · exact absurd rfl h2

/-! ## C12, C33 -/

/-- **C12.** No parse entry point panics, reaches undefined behaviour or runs for ever: each returns `Ok` or
`Err`, for every input and configuration. -/
theorem C12_no_panic (g : Bool) (src : List UInt8) (h : Input g src) (cfg : ParseConfig) (cap : Option Nat) (p : Panic) :
    validateWithConfig g src cfg ≠ .panic p ∧ Value.parseWithConfig g src cfg ≠ .panic p
      ∧ docFromJsonWithConfig cap g src cfg ≠ .panic p := by
  have hv : Value.parseWithConfig g src cfg ≠ .panic p := by
    intro hp
    rcases value_cases (cfg := cfg) h with ⟨j, h1, h2⟩ | ⟨e, h1, h2, _⟩ <;> rw [h2] at hp <;> cases hp
  refine ⟨?_, hv, ?_⟩
  · rw [validate_eq h]
    cases ho : Value.parseWithConfig g src cfg with
    | ok a => intro h; cases h
    | err e => intro h; cases h
    | panic q => exact absurd (ho) (by
        intro _
        rcases value_cases (cfg := cfg) h with ⟨j, h1, h2⟩ | ⟨e, h1, h2, _⟩ <;> rw [h2] at ho <;> cases ho)
  · intro hp
    rcases doc_cases (cap := cap) (cfg := cfg) h with ⟨v, h1, ⟨_, h2⟩ | ⟨_, _, h2⟩⟩ | ⟨e, h1, h2 | ⟨_, _, h2⟩⟩ <;>
      rw [h2] at hp <;> cases hp

/-- Some callback of the delegate, called with some arguments in some state, panics with `p`. -/
inductive CallbackPanics (D : Delegate) (p : Panic) : Prop
  | null (d : D.σ) (h : D.null d = .panic p)
  | boolean (b : Bool) (d : D.σ) (h : D.boolean b d = .panic p)
  | number (n : JsonNumber) (d : D.σ) (h : D.number n d = .panic p)
  | string (s : JsonString) (d : D.σ) (h : D.string s d = .panic p)
  | beginObject (d : D.σ) (h : D.beginObject d = .panic p)
  | objectKey (o : D.Object) (k : JsonString) (d : D.σ) (h : D.objectKey o k d = .panic p)
  | objectValue (o : D.Object) (k : D.Key) (v : D.Value) (d : D.σ) (h : D.objectValue o k v d = .panic p)
  | endObject (o : D.Object) (d : D.σ) (h : D.endObject o d = .panic p)
  | beginArray (d : D.σ) (h : D.beginArray d = .panic p)
  | arrayValue (a : D.Array) (v : D.Value) (d : D.σ) (h : D.arrayValue a v d = .panic p)
  | endArray (a : D.Array) (d : D.σ) (h : D.endArray a d = .panic p)
  | objectIsEmpty (o : D.Object) (d : D.σ) (h : D.objectIsEmpty d o = .panic p)
  | arrayIsEmpty (a : D.Array) (d : D.σ) (h : D.arrayIsEmpty d a = .panic p)
  | kindOf (v : D.Value) (d : D.σ) (h : D.kindOf d v = .panic p)

/-- **C12**, for any delegate: a parse panics only if a callback of the delegate does, with that very panic. -/
theorem C12_no_panic_any_delegate (g : Bool) (src : List UInt8) (h : Input g src) (cfg : ParseConfig) (D : Delegate)
    (d : D.σ) (p : Panic) (hp : parseBytes g src cfg D d = .panic p) : CallbackPanics D p := by
  have key : ∀ {α : Type} (m : M D.σ D.Err α) (_ : ∀ d p, m d = .panic p → CallbackPanics D p),
      Cb (fun _ => True) (fun _ _ => True) (CallbackPanics D) m := by
    intro α m hm d _
    unfold PWp
    cases hd : m d with
    | ok a s => trivial
    | err e s => trivial
    | panic q => exact hm d q hd
  have hD : CbSpec D (fun _ => True) (fun _ _ => True) (CallbackPanics D) :=
    { null := key _ fun d p => .null d
      boolean := fun b => key _ fun d p => .boolean b d
      number := fun b => key _ fun d p => .number b d
      string := fun b => key _ fun d p => .string b d
      beginObject := key _ fun d p => .beginObject d
      objectKey := fun o k => key _ fun d p => .objectKey o k d
      objectValue := fun o k v => key _ fun d p => .objectValue o k v d
      endObject := fun o => key _ fun d p => .endObject o d
      beginArray := key _ fun d p => .beginArray d
      arrayValue := fun a v => key _ fun d p => .arrayValue a v d
      endArray := fun a => key _ fun d p => .endArray a d
      objectIsEmpty := fun d o p _ => .objectIsEmpty o d
      arrayIsEmpty := fun d a p _ => .arrayIsEmpty a d
      kindOf := fun d v p _ => .kindOf v d }
  have := parse_generic (g := g) (cfg := cfg) hD h.lim h.fit (d := d) True.intro
  rw [hp] at this
  exact this

/-- **C33.** Each error returned by a parse, with any delegate, has an offset within the document. -/
theorem C33_error_offset_in_bounds (g : Bool) (src : List UInt8) (h : Input g src) (cfg : ParseConfig) (D : Delegate)
    (d : D.σ) (e : Error D.Err) (s : PState D.σ) (he : parseBytes g src cfg D d = .err e s) :
    e.offset ≤ src.length := by
  have := parse_generic (g := g) (cfg := cfg) (CbSpec.trivial (D := D)) h.lim h.fit (d := d) True.intro
  rw [he] at this
  exact this.1

/-- **C33**, for the entry points of the library. -/
theorem C33_entry_points (g : Bool) (src : List UInt8) (h : Input g src) (cfg : ParseConfig) (cap : Option Nat)
    (e : Error Empty) :
    (validateWithConfig g src cfg = .err e → e.offset ≤ src.length)
    ∧ (Value.parseWithConfig g src cfg = .err e → e.offset ≤ src.length)
    ∧ (docFromJsonWithConfig cap g src cfg = .err e → e.offset ≤ src.length) := by
  refine ⟨?_, ?_, ?_⟩
  · intro he
    unfold validateWithConfig at he
    cases hp : parseBytes g src cfg unitDelegate () with
    | ok a s => rw [hp] at he; cases he
    | err e' s => rw [hp] at he; cases he; exact C33_error_offset_in_bounds g src h cfg _ _ _ _ hp
    | panic p => rw [hp] at he; cases he
  · intro he
    unfold Value.parseWithConfig at he
    cases hp : parseBytes g src cfg valueParser () with
    | ok a s => rw [hp] at he; cases he
    | err e' s => rw [hp] at he; cases he; exact C33_error_offset_in_bounds g src h cfg _ _ _ _ hp
    | panic p => rw [hp] at he; cases he
  · intro he
    unfold docFromJsonWithConfig at he
    cases hp : parseBytes g src cfg (nodesDelegate cap) [] with
    | ok a s => rw [hp] at he; cases he
    | err e' s => rw [hp] at he; cases he; exact C33_error_offset_in_bounds g src h cfg _ _ _ _ hp
    | panic p => rw [hp] at he; cases he

/-! ## C42 -/

/-- `cfg'` is at least as permissive as `cfg`. -/
structure LooserOrEqual (cfg cfg' : ParseConfig) : Prop where
  /-- trailing commas stay allowed -/
  commas : cfg.allowTrailingCommas = true → cfg'.allowTrailingCommas = true
  /-- the limit is removed, kept or raised -/
  limit : ∀ n', cfg'.recursionLimit = some n' → ∃ n, cfg.recursionLimit = some n ∧ n ≤ n'
  /-- scalars at the root stay allowed -/
  root : cfg.allowAllTypesAtRoot = true → cfg'.allowAllTypesAtRoot = true

/-- **C42.** Loosening a configuration never rejects an accepted text and never changes the `Value`. -/
theorem C42_config_monotone (g : Bool) (src : List UInt8) (h : Input g src) (cfg cfg' : ParseConfig)
    (hc : LooserOrEqual cfg cfg') (v : Value) (hv : Value.parseWithConfig g src cfg = .ok v) :
    Value.parseWithConfig g src cfg' = .ok v := by
  obtain ⟨j, ⟨h1, h2, h3⟩, rfl⟩ := (value_ok_iff h).mp hv
  refine accepted_ok h ⟨text_mono hc.commas h1, ?_, ?_⟩
  · intro n' hn'
    obtain ⟨n, hn, hle⟩ := hc.limit n' hn'
    exact Nat.le_trans (h2 n hn) hle
  · exact h3.elim (fun h => .inl (hc.root h)) .inr

end

/-! ## Concrete cases -/

section
attribute [local instance] arch64

/-- `SliceFits` holds of ordinary inputs. -/
example : SliceFits (b8 "[1, {\"a\": null}]") := by unfold SliceFits; decide +kernel
example : Input true (b8 "[1, {\"a\": null}]") := input_str (by unfold SliceFits; decide +kernel)

/-- C01: a nested text is accepted (so the right-hand side holds of it) … -/
example : ∃ j, Text false (b8 " [1, {\"a\\u00e9\": null, \"a\": -0.5e+3}] ") j ∧ j.depth ≤ 128 ∧ j.kind = .array :=
  (C01_validate_accepts_iff _ (by unfold SliceFits; decide +kernel) .array).mp (by decide +kernel)
/-- … and an ill-formed one is rejected (so it is no text). -/
example : ¬ ∃ j, Text false (b8 "[1, 02]") j ∧ j.depth ≤ 128 ∧ j.kind = .array := fun h =>
  absurd ((C01_validate_accepts_iff _ (by unfold SliceFits; decide +kernel) .array).mpr h) (by decide +kernel)

/-- C02: an accepted text with duplicate keys. -/
example : ∃ j, Accepted .new (b8 "{\"a\":1,\"a\":[2]}") j :=
  (C02_value_is_denoted_tree false _ (input_bytes (by unfold SliceFits; decide +kernel)) .new _
    (Outcome.exists_ok (o := Value.parseWithConfig false (b8 "{\"a\":1,\"a\":[2]}") .new) (by decide +kernel)).choose_spec).1

/-- C03: the hypotheses of `C03_illegal_trailing_comma` are met by `[1,]x`. -/
example : GValue true (b8 "[1,]") (.arr [.num ⟨false, [0x31], none, none⟩]) ∧ ∀ j, ¬ GValue false (b8 "[1,]") j := by
  refine ⟨?_, ?_⟩
  · exact GValue.arr _ _ (GElems.trailing [] _ [] [] _ rfl (by simp [Ws])
      (GValue.num ⟨false, [0x31], none, none⟩ ⟨⟨⟨by simp, by simp [IsDigit]⟩, by simp⟩, by simp, by simp⟩)
      (by simp [Ws]) (by simp [Ws]))
  · intro j hj
    have : Value.parseWithConfig false (b8 "[1,]") ⟨false, none, true⟩ = .err ⟨3, .illegalTrailingComma⟩ :=
      Outcome.error_eq (by decide +kernel)
    have h2 := accepted_ok (g := false) (cfg := ⟨false, none, true⟩) (src := b8 "[1,]")
      (input_bytes (by unfold SliceFits; decide +kernel)) (j := j)
      ⟨⟨[], _, [], by simp [Ws], hj, by simp [Ws], rfl⟩, (fun n hn => by cases hn), .inl rfl⟩
    rw [this] at h2
    cases h2
example : Value.parseWithConfig false (b8 "[1,]x") .new = .err ⟨3, .illegalTrailingComma⟩ :=
  Outcome.error_eq (by decide +kernel)

/-- C04: two levels, siblings included; limit 2 accepts, limit 1 does not. -/
example : (Value.parseWithConfig false (b8 "[[],[],{}]") (ParseConfig.new.withRecursionLimit 2)).isOk = true := by
  decide +kernel
example : Value.parseWithConfig false (b8 "[[],[],{}]") (ParseConfig.new.withRecursionLimit 1)
    = .err ⟨1, .recursionLimitReached⟩ := Outcome.error_eq (by decide +kernel)

/-- C05: a scalar root followed by rubbish. -/
example : Value.parseWithConfig false (b8 " 12 ,]") (ParseConfig.new.allowingAllTypesAtRoot false)
    = .err ⟨0, .payloadsShouldBeObjectOrArray⟩ :=
  C05_scalar_root_error false .new [0x20] [0x31, 0x32] (b8 " ,]") (.num ⟨false, [0x31, 0x32], none, none⟩)
    (input_bytes (by unfold SliceFits; decide +kernel)) (by simp [Ws])
    (GValue.num ⟨false, [0x31, 0x32], none, none⟩ ⟨⟨⟨by simp, by simp [IsDigit]⟩, by simp⟩, by simp, by simp⟩)
    (by simp [Json.IsContainer]) (fun _ c hc => by
      rw [show (b8 " ,]").head? = some 0x20 from by decide +kernel] at hc
      cases hc
      decide)

/-- C12/C33: rejected inputs of several kinds. -/
example : Value.parseWithConfig false [0x22, 0xC3, 0x28, 0x22] .new = .err ⟨1, .utf8⟩ :=
  Outcome.error_eq (by decide +kernel)
example : (Value.parseWithConfig false (b8 "{\"a\":\"\\ud800x\"}") .new).error?.isSome = true := by decide +kernel

/-- C42: a real loosening. -/
example : LooserOrEqual .strict ⟨true, none, true⟩ :=
  ⟨fun _ => rfl, fun n h => (by cases h), fun _ => rfl⟩

end

/-! ## Instances: each theorem above applied to a concrete case that meets its hypotheses -/
section Instances
attribute [local instance] arch64

theorem exSrc_accepted : ∃ j, Accepted .new exSrc j :=
  (C02_value_is_denoted_tree false _ (exSrc_input _) .new _ (exSrc_parses _)).1
theorem exSrc_text : ∃ j, Text false exSrc j ∧ 2 ≤ j.depth :=
  let ⟨j, hj⟩ := exSrc_accepted
  ⟨j, hj.1, Nat.not_lt.mp fun hd => by
    obtain ⟨v, hv, _⟩ := C02_value_complete false exSrc (exSrc_input _) ⟨false, some 1, true⟩ j
      ⟨hj.1, fun n hn => by cases hn; exact Nat.le_of_lt_succ hd, .inl rfl⟩
    have : (Value.parseWithConfig false exSrc ⟨false, some 1, true⟩).isOk = false := by decide +kernel
    rw [hv] at this; cases this⟩

example := C01_validate_accepts_iff exSrc exSrc_fits .object
example := C01_validate_str_accepts_iff _ exSrc_fits .object
example := C01_validate_with_config_accepts_iff true exSrc (exSrc_input _) .strict .object
example := C02_value_is_denoted_tree true exSrc (exSrc_input _) .new exVal (exSrc_parses _)
example := C02_value_complete true exSrc (exSrc_input _) .new _ exSrc_accepted.choose_spec
example := C02_text_unambiguous false exSrc exSrc_fits _ _ exSrc_text.choose_spec.1 exSrc_text.choose_spec.1
example := C02_denotes_injective false exSrc exSrc exVal _ _ exSrc_text.choose_spec.1 exSrc_text.choose_spec.1
  ((C02_value_is_denoted_tree true exSrc (exSrc_input _) .new exVal (exSrc_parses _)).2 _ exSrc_text.choose_spec.1)
  ((C02_value_is_denoted_tree true exSrc (exSrc_input _) .new exVal (exSrc_parses _)).2 _ exSrc_text.choose_spec.1)
example := C03_trailing_commas_grammar true (b8 "[1, {\"a\":2,}]") (by lit) .new
example := C03_strict_implies_lenient true exSrc (exSrc_input _) .new exVal (exSrc_parses _)
example := C03_only_difference_is_illegal_trailing_comma true (b8 "[1, {\"a\":2,}]") .new
example := C04_recursion_limit_exact true exSrc (exSrc_input _) .new 2 exVal
example := C04_too_deep true exSrc (exSrc_input _) .new 1 _ exSrc_text.choose_spec.1 exSrc_text.choose_spec.2
example := C04_too_deep_value true exSrc (exSrc_input _) .new 1 exVal (value_same (by decide +kernel)) (by decide +kernel)
example := C05_root_restriction true exSrc (exSrc_input _) .new exVal
example := C07_validate_agrees true exBad (exBad_input _) .new
example := C07_document_agrees true exSrc (exSrc_input _) .new
example := C12_no_panic true exBad (exBad_input _) .new (some 3)
/-- a delegate whose `number` panics, as a callback that unwraps a `None` would -/
@[reducible] def panicky : Delegate := { valueParser with number := fun _ _ => .panic .expect }
example := C12_no_panic_any_delegate true exSrc (exSrc_input _) .new panicky () _
  (Out.exists_panic (o := parseBytes true exSrc .new panicky ()) (by decide +kernel)).choose_spec
example := C33_entry_points false exBad (exBad_input _) .new (some 3)
example := C42_config_monotone true exSrc (exSrc_input _) .strict ⟨true, none, true⟩
  ⟨fun _ => rfl, fun n h => (by cases h), fun _ => rfl⟩ exVal (value_same (by decide +kernel))

example := C33_error_offset_in_bounds false exBad (exBad_input _) .new unitDelegate () _ _
  (Out.exists_err (o := parseBytes false exBad .new unitDelegate ()) (by decide +kernel)).choose_spec.choose_spec

end Instances
end JustJson
