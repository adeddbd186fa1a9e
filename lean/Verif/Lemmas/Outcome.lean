import Verif.Lemmas.Unique
/-! # Outcomes of the entry points -/

namespace JustJson
open Spec

set_option linter.unusedSectionVars false

section
variable {src : List UInt8} [Arch] {g : Bool} {cfg : ParseConfig}

theorem fits_lim : SliceFits src ↔ src.length < LIM := by
  unfold SliceFits
  have := LIM_pos
  show src.length ≤ LIM - 1 ↔ _
  omega

theorem Input.lim (h : Input g src) : src.length < LIM := fits_lim.mp h.1

theorem Input.fit (h : Input g src) : Fit g src 0 := by
  intro hg
  obtain ⟨s, hs⟩ := h.2 hg
  exact Boundary.of_utf8 (s := s) (by simpa using hs)

theorem input_bytes (h : SliceFits src) : Input false src := ⟨h, fun h => by simp at h⟩

theorem input_str {s : Str} (h : SliceFits (utf8 s)) : Input true (utf8 s) := ⟨h, fun _ => ⟨s, rfl⟩⟩

theorem intoFallable_self (e : Error Empty) : (e.intoFallable : Error Empty) = e := by
  obtain ⟨off, k⟩ := e
  unfold Error.intoFallable
  cases k with
  | errorFromDelegate x => exact x.elim
  | _ => rfl

/-- callbacks of `ValueParser` never fail -/
theorem value_cbSpec : CbSpec valueParser (fun _ => True) (fun _ _ => False) (fun _ => False) := by
  constructor <;> (intros; first | (intro d _; exact True.intro) | skip)
  all_goals (rename_i h; cases h)

theorem depth_ofJson : (∀ j, (ofJson j).depth = j.depth) ∧ (∀ ms, Value.depthEntries (ofMembers ms) = depthMembers ms)
    ∧ ∀ js, Value.depthList (ofJsons js) = depthList js := by
  apply Json.induct
  · rfl
  · intro b; rfl
  · intro b; rfl
  · intro b; rfl
  · intro ms ih; rw [ofJson, Value.depth, Json.depth, ih]
  · intro ms ih; rw [ofJson, Value.depth, Json.depth, ih]
  · rfl
  · intro k j ms h1 h2; rw [ofMembers, Value.depthEntries, depthMembers, h1, h2]
  · rfl
  · intro j ms h1 h2; rw [ofJsons, Value.depthList, depthList, h1, h2]

theorem container_ofJson (j : Json) : (ofJson j).IsContainer ↔ j.IsContainer := by
  cases j <;> rfl

/-- The outcome of `Value` parsing. -/
theorem value_cases (h : Input g src) :
    (∃ j, Accepted cfg src j ∧ Value.parseWithConfig g src cfg = .ok (ofJson j))
    ∨ (∃ e, (¬ ∃ j, Accepted cfg src j) ∧ Value.parseWithConfig g src cfg = .err e ∧ e.offset ≤ src.length) := by
  have hg := parse_generic (g := g) (cfg := cfg) value_cbSpec h.lim h.fit (d := ()) True.intro
  unfold Value.parseWithConfig
  cases hp : parseBytes g src cfg valueParser () with
  | ok v s =>
    obtain ⟨j, h1, rfl, h3, h4⟩ := value_ok h.lim h.fit hp
    exact .inl ⟨j, ⟨h1, h3, h4⟩, rfl⟩
  | err e s =>
    rw [hp] at hg
    refine .inr ⟨e, ?_, rfl, hg.1⟩
    rintro ⟨j, h1, h2, h3⟩
    obtain ⟨s', h⟩ := value_complete (g := g) h.lim h1 h2 h3
    rw [hp] at h
    cases h
  | panic p => rw [hp] at hg; exact hg.elim

theorem value_ok_iff (h : Input g src) {v : Value} :
    Value.parseWithConfig g src cfg = .ok v ↔ ∃ j, Accepted cfg src j ∧ v = ofJson j := by
  rcases value_cases (cfg := cfg) h with ⟨j, h1, h2⟩ | ⟨e, h1, h2, _⟩
  · rw [h2]
    constructor
    · intro h; injection h with h; exact ⟨j, h1, h.symm⟩
    · rintro ⟨j', h1', rfl⟩
      rw [text_unique h.lim h1.1 h1'.1]
  · rw [h2]
    constructor
    · intro h; cases h
    · rintro ⟨j, h, _⟩; exact absurd ⟨j, h⟩ h1

theorem accepted_ok (h : Input g src) {j : Json} (ha : Accepted cfg src j) :
    Value.parseWithConfig g src cfg = .ok (ofJson j) := (value_ok_iff h).mpr ⟨j, ha, rfl⟩

/-! ## Other delegates -/

/-- What a run with any truthful delegate gives, in terms of `Value` parsing. -/
theorem delegate_cases {D : Delegate} (h : Input g src) (hT : Truthful D) (hK : cfg.allowAllTypesAtRoot = true ∨ KindTruthful D) (d : D.σ) :
    (∃ v s', Value.parseWithConfig g src cfg = .ok v ∧ Match (foldValue D v d) s' (parseBytes g src cfg D d))
    ∨ (∃ e s d', Value.parseWithConfig g src cfg = .err e ∧ parseBytes g src cfg D d = .err e.intoFallable s
        ∧ s.delegate = d')
    ∨ (∃ e, Value.parseWithConfig g src cfg = .err e ∧ ∃ f : Fl D, f.On (parseBytes g src cfg D d)
        ∧ ∃ v, foldValue D v d = f.out) := by
  have hs := parse_fold (src := src) (g := g) (cfg := cfg) hT hK d
  rcases value_cases (cfg := cfg) h with ⟨j, h1, h2⟩ | ⟨e, h1, h2, _⟩
  · refine .inl ⟨ofJson j, ?_⟩
    unfold Value.parseWithConfig at h2 ⊢
    cases hp : parseBytes g src cfg valueParser () with
    | ok v s =>
      rw [hp] at hs h2
      injection h2 with h2
      exact ⟨s, by rw [← h2]; rfl, by rw [← h2]; exact hs⟩
    | err e s => rw [hp] at h2; cases h2
    | panic p => rw [hp] at h2; cases h2
  · refine .inr ?_
    unfold Value.parseWithConfig at h2 ⊢
    cases hp : parseBytes g src cfg valueParser () with
    | ok v s => rw [hp] at h2; cases h2
    | err e' s =>
      rw [hp] at hs h2
      injection h2 with h2
      subst h2
      rcases hs with ⟨d', hs⟩ | hs
      · exact .inl ⟨e', _, d', rfl, hs, rfl⟩
      · exact .inr ⟨e', rfl, hs⟩
    | panic p => rw [hp] at h2; cases h2

/-- `validate` is `Value` parsing with the value replaced by its kind. -/
theorem validate_eq (h : Input g src) :
    validateWithConfig g src cfg = (Value.parseWithConfig g src cfg).map Value.kind := by
  unfold validateWithConfig
  rcases delegate_cases (cfg := cfg) h unit_truthful (.inr unit_kind) () with ⟨v, s, h1, h2⟩ | ⟨e, s, d', h1, h2, _⟩ | ⟨e, h1, f, hf, v, h3⟩
  · rw [h1]
    rw [unit_fold.1] at h2
    have h2 : parseBytes g src cfg unitDelegate () = .ok v.kind _ := h2
    rw [h2]; rfl
  · rw [h1, h2, intoFallable_self]; rfl
  · rw [unit_fold.1] at h3
    cases f <;> cases h3

/-- Outcome of a document parse. -/
theorem doc_cases {cap : Option Nat} (h : Input g src) :
    (∃ v, Value.parseWithConfig g src cfg = .ok v ∧
      ((CapOk cap (flatten v).length ∧ docFromJsonWithConfig cap g src cfg = .ok (flatten v))
      ∨ (¬ CapOk cap (flatten v).length ∧ ∃ off, docFromJsonWithConfig cap g src cfg = .err ⟨off, .paylodTooLarge⟩)))
    ∨ (∃ e, Value.parseWithConfig g src cfg = .err e ∧
      (docFromJsonWithConfig cap g src cfg = .err e
      ∨ (cap ≠ none ∧ ∃ off, docFromJsonWithConfig cap g src cfg = .err ⟨off, .paylodTooLarge⟩))) := by
  have h0 : CapOk cap ([] : List Node).length := fun N _ => Nat.zero_le N
  unfold docFromJsonWithConfig
  rcases delegate_cases (cfg := cfg) h nodes_truthful (.inr nodes_kind) ([] : List Node) (D := nodesDelegate cap) with
    ⟨v, s, h1, h2⟩ | ⟨e, s, d', h1, h2, _⟩ | ⟨e, h1, f, hf, v, h3⟩
  · refine .inl ⟨v, h1, ?_⟩
    rcases nodes_fold.1 v [] h0 with ⟨hc, hn⟩ | ⟨hc, ns', hn, _⟩
    · rw [hn] at h2
      have h2 : parseBytes g src cfg (nodesDelegate cap) [] = .ok _ _ := h2
      rw [h2]
      exact .inl ⟨hc, rfl⟩
    · rw [hn] at h2
      obtain ⟨off, s, h2, _⟩ := h2
      rw [h2]
      exact .inr ⟨hc, off, rfl⟩
  · refine .inr ⟨e, h1, .inl ?_⟩
    rw [h2]
    show Outcome.err _ = Outcome.err _
    congr 1
    obtain ⟨off, k⟩ := e
    unfold Error.intoFallable Error.intoInfallable
    cases k with
    | errorFromDelegate x => exact x.elim
    | _ => rfl
  · refine .inr ⟨e, h1, .inr ?_⟩
    rcases nodes_fold.1 v [] h0 with ⟨hc, hn⟩ | ⟨hc, ns', hn, _⟩
    · rw [hn] at h3; cases f <;> cases h3
    · rw [hn] at h3
      cases f with
      | err x d =>
        cases h3
        obtain ⟨off, s, h2, _⟩ := hf
        rw [h2]
        refine ⟨?_, off, rfl⟩
        rintro rfl
        exact hc (fun N hN => by cases hN)
      | panic p => cases h3

end
end JustJson
