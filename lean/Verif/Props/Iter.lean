import Verif.Model.Iter
import Verif.Spec.Iter
import Verif.Props.Strings
import Verif.Props.Render
/-! # The iterators over a string's text and its JSON form, call by call: C66 -/

namespace JustJson
open Spec

section
variable [Arch]

/-- the iterator yields exactly these characters -/
inductive IterYields {σ : Type} (next : σ → Res (Option (Char × σ))) : σ → Str → Prop where
  | nil (s : σ) : next s = .ok none → IterYields next s []
  | cons (s s' : σ) (c : Char) (cs : Str) : next s = .ok (some (c, s')) → IterYields next s' cs → IterYields next s (c :: cs)

omit [Arch] in
theorem answersOf_cons (c : Char) (t : Str) (k : Nat) : answersOf (c :: t) (k + 1) = some c :: answersOf t k := by
  unfold answersOf
  rw [List.range_succ_eq_map, List.map_cons, List.map_map]
  rfl

omit [Arch] in
theorem answersOf_nil (k : Nat) : answersOf [] (k + 1) = none :: answersOf [] k := by
  unfold answersOf
  rw [List.range_succ_eq_map, List.map_cons, List.map_map]
  rfl

omit [Arch] in
theorem IterYields.calls {σ : Type} {next : σ → Res (Option (Char × σ))} (I : σ → Prop)
    (hI : ∀ s c s', I s → next s = .ok (some (c, s')) → I s') :
    ∀ (k : Nat) (s : σ) (cs : Str), I s → IterYields next s cs →
      ∃ s', nextCalls next k s = .ok (answersOf cs k, s') ∧ I s' ∧ IterYields next s' (cs.drop k)
  | 0, s, cs, hi, h => ⟨s, rfl, hi, h⟩
  | k + 1, s, cs, hi, h => by
    cases h with
    | nil _ hn =>
      obtain ⟨s', h1, h2, h3⟩ := IterYields.calls I hI k s [] hi (.nil s hn)
      refine ⟨s', ?_, h2, by simpa using h3⟩
      rw [nextCalls, hn, Res.bind_eq]
      simp only []
      rw [h1, answersOf_nil]
      rfl
    | cons _ s1 c cs hn hy =>
      obtain ⟨s', h1, h2, h3⟩ := IterYields.calls I hI k s1 cs (hI _ _ _ hi hn) hy
      refine ⟨s', ?_, h2, h3⟩
      rw [nextCalls, hn, Res.bind_eq]
      simp only []
      rw [h1, answersOf_cons]
      rfl

omit [Arch] in
theorem Decoded.yields {n : Nat} {d : Decoded} {cs : Str} (h : d.collectFuel n = .ok cs) : IterYields Decoded.next d cs := by
  induction n generalizing d cs with
  | zero => cases h
  | succ n ih =>
    rw [Decoded.collectFuel] at h
    cases hn : d.next with
    | panic p => rw [hn] at h; cases h
    | ok o =>
      rw [hn] at h
      cases o with
      | none => cases h; exact .nil _ hn
      | some q =>
        obtain ⟨c, d'⟩ := q
        simp only [] at h
        cases hr : Decoded.collectFuel n d' with
        | panic p => rw [hr] at h; cases h
        | ok o2 => rw [hr] at h; cases h; exact .cons _ _ _ _ hn (ih hr)

theorem AsJson.yields {n : Nat} {a af : AsJson} {cs : Str} (h : a.collectFuel n = .ok (cs, af)) : IterYields AsJson.next a cs := by
  induction n generalizing a cs with
  | zero => cases h
  | succ n ih =>
    rw [AsJson.collectFuel] at h
    cases hn : a.next with
    | panic p => rw [hn] at h; cases h
    | ok o =>
      rw [hn] at h
      cases o with
      | none => cases h; exact .nil _ hn
      | some q =>
        obtain ⟨c, d'⟩ := q
        simp only [] at h
        cases hr : AsJson.collectFuel n d' with
        | panic p => rw [hr] at h; cases h
        | ok o2 => obtain ⟨o2, af'⟩ := o2; rw [hr] at h; cases h; exact .cons _ _ _ _ hn (ih hr)

omit [Arch] in
theorem Decoded.fmtFuel_eq (F : Writer) {d : Decoded} {cs : Str} (h : IterYields Decoded.next d cs) :
    ∀ n, cs.length < n → ∀ w, d.fmtFuel F n w = .ok (makeCalls F w (cs.map .char)) := by
  induction h with
  | nil s hn =>
    intro n hl w
    obtain ⟨n, rfl⟩ : ∃ f, n = f + 1 := ⟨n - 1, by omega⟩
    rw [Decoded.fmtFuel, hn]
    rfl
  | cons s s' c cs hn hy ih =>
    intro n hl w
    obtain ⟨n, rfl⟩ : ∃ f, n = f + 1 := ⟨n - 1, by omega⟩
    rw [Decoded.fmtFuel, hn, List.map_cons, makeCalls]
    simp only [WCall.make]
    rcases hw : F.writeChar w c with ⟨w', b⟩
    cases b with
    | true => exact ih n (by simp at hl; omega) w'
    | false => rfl

theorem AsJson.fmtFuel_eq (F : Writer) {a : AsJson} {cs : Str} (h : IterYields AsJson.next a cs) :
    ∀ n, cs.length < n → ∀ w, a.fmtFuel F n w = .ok (makeCalls F w (cs.map .char)) := by
  induction h with
  | nil s hn =>
    intro n hl w
    obtain ⟨n, rfl⟩ : ∃ f, n = f + 1 := ⟨n - 1, by omega⟩
    rw [AsJson.fmtFuel, hn]
    rfl
  | cons s s' c cs hn hy ih =>
    intro n hl w
    obtain ⟨n, rfl⟩ : ∃ f, n = f + 1 := ⟨n - 1, by omega⟩
    rw [AsJson.fmtFuel, hn, List.map_cons, makeCalls]
    simp only [WCall.make]
    rcases hw : F.writeChar w c with ⟨w', b⟩
    cases b with
    | true => exact ih n (by simp at hl; omega) w'
    | false => rfl

omit [Arch] in
theorem Decoded.next_shrinks {d d' : Decoded} {c : Char} (h : d.next = .ok (some (c, d'))) : d'.chars.length < d.chars.length := by
  unfold Decoded.next at h
  cases hc : d.chars with
  | nil => rw [hc] at h; cases h
  | cons p rest =>
    obtain ⟨o, ch⟩ := p
    rw [hc] at h
    simp only [] at h
    split at h
    · cases rest with
      | nil => cases h
      | cons q rest =>
        obtain ⟨off, e⟩ := q
        simp only [] at h
        have fin : ∀ e' r, r.length ≤ rest.length → (Res.ok (some (e', ({ d with chars := r } : Decoded))) : Res _) = .ok (some (c, d')) →
            d'.chars.length < ((o, ch) :: (off, e) :: rest).length := by
          intro e' r hr h; cases h; simp; omega
        iterate 5
          split at h
          · exact fin _ _ (Nat.le_refl _) h
        split at h
        · unfold Decoded.nextUnicode at h
          simp only [] at h
          have key : ∀ {α} (x : Res α) (f : α → Res (Option (Char × Decoded))), (x >>= f) = .ok (some (c, d')) →
              ∃ y, f y = .ok (some (c, d')) := by
            intro α x f h
            cases x with
            | ok y => exact ⟨y, h⟩
            | panic p => cases h
          obtain ⟨hex, h⟩ := key _ _ h
          obtain ⟨cp, h⟩ := key _ _ h
          split at h
          · obtain ⟨_, h⟩ := key _ _ h
            obtain ⟨_, h⟩ := key _ _ h
            obtain ⟨_, h⟩ := key _ _ h
            obtain ⟨_, h⟩ := key _ _ h
            exact fin _ _ (by simp) h
          · obtain ⟨_, h⟩ := key _ _ h
            exact fin _ _ (by simp) h
        · exact fin _ _ (Nat.le_refl _) h
    · cases h; simp

omit [Arch] in
theorem Decoded.yields_length {d : Decoded} {cs : Str} (h : IterYields Decoded.next d cs) : cs.length ≤ d.chars.length := by
  induction h with
  | nil => exact Nat.zero_le _
  | cons s s' c cs hn hy ih => have := Decoded.next_shrinks hn; simp; omega

/-- the nibble counter of a begun `\u` escape is below four -/
def AsJson.Inv (a : AsJson) : Prop := ∀ k cp, a.state = .unicode (some k) cp → k < 4

/-- characters of a begun escape still to come -/
def EscapeState.left : EscapeState → Nat
  | .alreadyEscaped => 0
  | .none => 0
  | .single _ => 1
  | .unicode (some k) _ => 4 - k
  | .unicode Option.none _ => 5

theorem AsJson.nextChar_left {a a' : AsJson} {c ch : Char} (h : a.nextChar c = .ok (some (ch, a'))) (hs : a.state = .none) :
    a'.Inv ∧ a'.chars = a.chars ∧ a'.state.left ≤ 5 := by
  unfold AsJson.nextChar at h
  simp only [] at h
  have esc : ∀ st n, (∀ k cp, st ≠ .unicode (some k) cp) → st.left ≤ 5 →
      ((Res.orPanic .overflow (a.info.addBytesFromEscape n)) >>= fun info =>
        (Pure.pure (some ('\\', ({ a with state := st, info := info } : AsJson))) : Res _)) = .ok (some (ch, a')) →
      a'.Inv ∧ a'.chars = a.chars ∧ a'.state.left ≤ 5 := by
    intro st n h1 h2 h
    cases hx : (a.info.addBytesFromEscape n : Option JsonStringInfo) with
    | none => rw [hx] at h; cases h
    | some i => rw [hx] at h; cases h; exact ⟨fun k cp h => absurd h (h1 k cp), rfl, h2⟩
  have key : ∀ k, ((Res.orPanic .overflow (a.info.addBytes k)) >>= fun info =>
      (Pure.pure (some (c, ({ a with info := info } : AsJson))) : Res _)) = .ok (some (ch, a')) →
      a'.Inv ∧ a'.chars = a.chars ∧ a'.state.left ≤ 5 := by
    intro k h
    cases hx : (a.info.addBytes k : Option JsonStringInfo) with
    | none => rw [hx] at h; cases h
    | some i =>
      rw [hx] at h; cases h
      refine ⟨fun k cp h => ?_, rfl, ?_⟩
      · have h : a.state = _ := h
        rw [hs] at h; cases h
      · show a.state.left ≤ 5
        rw [hs]; decide
  split at h
  · split at h
    · exact key _ h
    · iterate 6
        split at h
        · exact esc _ _ (by intro k cp h; cases h) (by simp [EscapeState.left]) h
      split at h
      · exact esc _ _ (by intro k cp h; cases h) (by simp [EscapeState.left]) h
      · cases h
  · exact key _ h

theorem AsJson.next_left {a a' : AsJson} {ch : Char} (h : a.next = .ok (some (ch, a'))) (hi : a.Inv) :
    a'.Inv ∧ 6 * a'.chars.length + a'.state.left + 1 ≤ 6 * a.chars.length + a.state.left := by
  obtain ⟨chars, state, info⟩ := a
  unfold AsJson.next at h
  cases state with
  | alreadyEscaped =>
    cases chars with
    | nil => cases h
    | cons c cs => cases h; exact ⟨fun _ _ h => (by cases h), (by simp [EscapeState.left]; omega)⟩
  | none =>
    cases chars with
    | nil => cases h
    | cons c cs =>
      obtain ⟨h1, h2, h3⟩ := AsJson.nextChar_left h rfl
      exact ⟨h1, by rw [h2, show EscapeState.left .none = 0 from rfl]; simp only [List.length_cons]; omega⟩
  | single b => cases h; exact ⟨fun _ _ h => (by cases h), (by simp [EscapeState.left])⟩
  | unicode o cp =>
    cases o with
    | none => cases h; exact ⟨fun _ _ h => (by cases h; omega), (by simp [EscapeState.left])⟩
    | some k =>
      have hk := hi k cp rfl
      simp only [] at h
      split at h
      · cases h; exact ⟨fun _ _ h => (by cases h), (by simp [EscapeState.left]; omega)⟩
      · cases h; exact ⟨fun _ _ h => (by cases h; omega), (by simp [EscapeState.left]; omega)⟩

theorem AsJson.yields_length {a : AsJson} {cs : Str} (h : IterYields AsJson.next a cs) (hi : a.Inv) :
    cs.length ≤ 6 * a.chars.length + a.state.left := by
  induction h with
  | nil => exact Nat.zero_le _
  | cons s s' c cs hn hy ih =>
    obtain ⟨h1, h2⟩ := AsJson.next_left hn hi
    have := ih h1
    simp; omega

omit [Arch] in
theorem EscapeState.left_le (s : EscapeState) : s.left ≤ 5 := by
  cases s with
  | unicode o cp => cases o <;> simp [EscapeState.left] <;> omega
  | _ => simp [EscapeState.left]

omit [Arch] in
theorem AsJson.new_inv (s : StringContents) (i : JsonStringInfo) : (AsJson.new s i).Inv := by
  intro k cp h
  cases s <;> cases h

/-- **C66.** The iterator `decoded()` of a string whose text is `t` answers `k` calls of `next` with the characters of `t` one
by one and with `None` from then on; and at any point, `Display` of the iterator makes one `write_char` call for each character
still to come, up to the first that fails, and returns whether one failed. -/
theorem C66_decoded (j : JsonString) (hj : Obtainable j) : ∃ t, HasText j t ∧ ∀ k, ∃ d,
    nextCalls Decoded.next k (Decoded.new j.source j.info) = .ok (answersOf t k, d)
    ∧ ∀ (F : Writer) (w : F.W), d.fmt F w = .ok (makeCalls F w ((t.drop k).map .char)) := by
  obtain ⟨⟨t, ht⟩, _⟩ := C16_no_string_operation_panics j j hj hj [] ⟨Unit, fun s _ => s, fun s _ => s⟩ ()
  refine ⟨t, ht, fun k => ?_⟩
  obtain ⟨d, h1, -, h3⟩ := IterYields.calls (fun _ => True) (fun _ _ _ _ _ => trivial) k _ _ trivial (Decoded.yields ht)
  exact ⟨d, h1, fun F w => Decoded.fmtFuel_eq F h3 _ (Nat.lt_succ_of_le (Decoded.yields_length h3)) w⟩

/-- **C66**: `Display` of a string writes its text, one `write_char` call for each character, up to the first that fails. -/
theorem C66_display (j : JsonString) (hj : Obtainable j) : ∃ t, HasText j t ∧
    ∀ (F : Writer) (w : F.W), j.fmt F w = .ok (makeCalls F w (t.map .char)) := by
  obtain ⟨t, ht, h⟩ := C66_decoded j hj
  refine ⟨t, ht, fun F w => ?_⟩
  obtain ⟨d, h1, h2⟩ := h 0
  cases h1
  exact h2 F w

/-- **C66**, the iterator `as_json()` of a string whose rendering is `r`. -/
theorem C66_as_json (j : JsonString) (r : Str) (hr : j.asJson = .ok r) (k : Nat) : ∃ a,
    nextCalls AsJson.next k (AsJson.new j.source j.info) = .ok (answersOf r k, a)
    ∧ ∀ (F : Writer) (w : F.W), a.fmt F w = .ok (makeCalls F w ((r.drop k).map .char)) := by
  unfold JsonString.asJson at hr
  cases hc : (AsJson.new j.source j.info).collect with
  | panic p => rw [hc] at hr; cases hr
  | ok q =>
    obtain ⟨out, af⟩ := q
    rw [hc] at hr
    cases hr
    obtain ⟨a, h1, h2, h3⟩ := IterYields.calls AsJson.Inv (fun _ _ _ hi hn => (AsJson.next_left hn hi).1) k _ _
      (AsJson.new_inv _ _) (AsJson.yields hc)
    refine ⟨a, h1, fun F w => AsJson.fmtFuel_eq F h3 _ ?_ w⟩
    have := AsJson.yields_length h3 h2
    have := a.state.left_le
    omega

omit [Arch] in
theorem writtenLen_pos (c : Char) : 1 ≤ writtenLen c := by unfold writtenLen; split <;> (try split) <;> omega

theorem escState_left {c : Char} (h : escC c = true) : (escState c).left + 1 = writtenLen c := by
  rcases escC_cases h with hc | rfl | rfl
  · refine forall_ctl (P := fun c => (escState c).left + 1 = writtenLen c) ?_ hc
    decide +kernel
  · rfl
  · rfl

omit [Arch] in
theorem writtenLen_plain {c : Char} (h : escC c = false) : writtenLen c = 1 := by
  unfold escC at h
  simp only [Bool.or_eq_false_iff, decide_eq_false_iff_not, beq_eq_false_iff_ne] at h
  unfold writtenLen
  rw [if_neg, if_neg h.1.1]
  intro hm
  simp only [List.mem_cons, List.not_mem_nil, or_false] at hm
  rcases hm with rfl | rfl | rfl | rfl | rfl | rfl | rfl
  · exact h.1.2 rfl
  · exact h.2 rfl
  all_goals exact absurd h.1.1 (by decide)

theorem nextChar_plain_state {a a' : AsJson} {c d : Char} (he : escC c = false) (h : a.nextChar c = .ok (some (d, a'))) :
    a'.state = a.state := by
  unfold AsJson.nextChar at h
  simp only [] at h
  have key : ∀ k, ((Res.orPanic .overflow (a.info.addBytes k)) >>= fun info =>
      (Pure.pure (some (c, ({ a with info := info } : AsJson))) : Res _)) = .ok (some (d, a')) → a'.state = a.state := by
    intro k h
    cases hx : (a.info.addBytes k : Option JsonStringInfo) with
    | none => rw [hx] at h; cases h
    | some i => rw [hx] at h; cases h; rfl
  split at h
  · split at h
    · exact key _ h
    · rename_i h1 h2
      have : safeLookup SAFE_STRING_BYTES (UInt8.ofNat c.toNat) = true := by
        rw [safe_iff, toNat_ofNat_u8 (by omega)]
        unfold escC at he
        simp only [Bool.or_eq_false_iff, decide_eq_false_iff_not, beq_eq_false_iff_ne] at he
        exact ⟨by omega, fun h => he.1.2 (char_ext h), fun h => he.2 (char_ext h)⟩
      exact absurd this h2
  · exact key _ h

theorem AsJson.next_begun {a a' : AsJson} {ch : Char} (h : a.next = .ok (some (ch, a'))) (hi : a.Inv) (hs : a.state ≠ .alreadyEscaped) :
    a'.state ≠ .alreadyEscaped ∧ ∀ k, notBegun a'.chars (k - a'.state.left) = notBegun a.chars (k + 1 - a.state.left) := by
  obtain ⟨chars, state, info⟩ := a
  unfold AsJson.next at h
  cases state with
  | alreadyEscaped => exact absurd rfl hs
  | none =>
    cases chars with
    | nil => cases h
    | cons c cs =>
      have h : AsJson.nextChar ⟨cs, .none, info⟩ c = _ := h
      cases he : escC c with
      | true =>
        rw [nextChar_esc' he] at h
        have hl := escState_left he
        cases hx : (JsonStringInfo.addBytesFromEscape info (cnt c) : Option JsonStringInfo) with
        | none => rw [hx] at h; cases h
        | some i =>
          rw [hx] at h
          cases h
          refine ⟨?_, fun k => ?_⟩
          · unfold escState; cases shortEsc c <;> (intro h; cases h)
          · show notBegun cs (k - (escState c).left) = notBegun (c :: cs) (k + 1 - 0)
            rw [Nat.sub_zero, notBegun]
            congr 1
            omega
      | false =>
        have h1 := nextChar_plain_state he h
        obtain ⟨d, a2, h2, h3⟩ := nextChar_some _ _ _ h
        cases h2
        have h1 : a'.state = .none := h1
        have h3 : a'.chars = cs := h3
        rw [h1, h3]
        refine ⟨(by intro h; cases h), fun k => ?_⟩
        show notBegun cs (k - 0) = notBegun (c :: cs) (k + 1 - 0)
        rw [Nat.sub_zero, Nat.sub_zero, notBegun, writtenLen_plain he, Nat.add_sub_cancel]
  | single b =>
    cases h
    exact ⟨(by intro h; cases h), fun k => rfl⟩
  | unicode o cp =>
    cases o with
    | none =>
      cases h
      refine ⟨(by intro h; cases h), fun k => ?_⟩
      show notBegun chars (k - 4) = notBegun chars (k + 1 - 5)
      congr 1
    | some n =>
      have hk := hi n cp rfl
      simp only [] at h
      split at h
      · cases h
        refine ⟨(by intro h; cases h), fun k => ?_⟩
        show notBegun chars (k - 0) = notBegun chars (k + 1 - (4 - n))
        congr 1
        omega
      · cases h
        refine ⟨(by intro h; cases h), fun k => ?_⟩
        show notBegun chars (k - (4 - (n + 1))) = notBegun chars (k + 1 - (4 - n))
        congr 1
        omega

omit [Arch] in
theorem notBegun_nil (k : Nat) : notBegun [] k = [] := by cases k <;> rfl

theorem AsJson.calls_begun : ∀ (k : Nat) (a a' : AsJson) (o : List (Option Char)), a.Inv → a.state ≠ .alreadyEscaped →
    nextCalls AsJson.next k a = .ok (o, a') → a'.chars = notBegun a.chars (k - a.state.left)
  | 0, a, a', o, _, _, h => by cases h; rw [Nat.zero_sub]; cases a.chars <;> rfl
  | k + 1, a, a', o, hi, hs, h => by
    rw [nextCalls] at h
    cases hn : a.next with
    | panic p => rw [hn] at h; cases h
    | ok r =>
      rw [hn, Res.bind_eq] at h
      cases r with
      | none =>
        simp only [] at h
        cases hr : nextCalls AsJson.next k a with
        | panic p => rw [hr] at h; cases h
        | ok q =>
          obtain ⟨o', a2⟩ := q
          rw [hr] at h
          cases h
          have := AsJson.calls_begun k a a2 o' hi hs hr
          rw [(next_chars a _ hn).1 rfl, notBegun_nil] at this ⊢
          exact this
      | some p =>
        obtain ⟨c, a1⟩ := p
        simp only [] at h
        cases hr : nextCalls AsJson.next k a1 with
        | panic p => rw [hr] at h; cases h
        | ok q =>
          obtain ⟨o', a2⟩ := q
          rw [hr] at h
          cases h
          obtain ⟨h1, h2⟩ := AsJson.next_begun hn hi hs
          show a2.chars = _
          rw [AsJson.calls_begun k a1 _ o' (AsJson.next_left hn hi).1 h1 hr, h2]

theorem AsJson.calls_escaped : ∀ (k : Nat) (a a' : AsJson) (o : List (Option Char)), a.state = .alreadyEscaped →
    nextCalls AsJson.next k a = .ok (o, a') → a'.chars = a.chars.drop k
  | 0, a, a', o, _, h => by cases h; rfl
  | k + 1, a, a', o, hs, h => by
    obtain ⟨chars, state, info⟩ := a
    cases hs
    rw [nextCalls] at h
    cases chars with
    | nil =>
      have hn : AsJson.next ⟨[], .alreadyEscaped, info⟩ = .ok none := rfl
      rw [hn, Res.bind_eq] at h
      simp only [] at h
      cases hr : nextCalls AsJson.next k ⟨[], .alreadyEscaped, info⟩ with
      | panic p => rw [hr] at h; cases h
      | ok q =>
        obtain ⟨o', a2⟩ := q
        rw [hr] at h
        cases h
        have := AsJson.calls_escaped k _ a2 o' rfl hr
        rw [List.drop_nil] at this ⊢
        exact this
    | cons c cs =>
      have hn : AsJson.next ⟨c :: cs, .alreadyEscaped, info⟩ = .ok (some (c, ⟨cs, .alreadyEscaped, info⟩)) := rfl
      rw [hn, Res.bind_eq] at h
      simp only [] at h
      cases hr : nextCalls AsJson.next k ⟨cs, .alreadyEscaped, info⟩ with
      | panic p => rw [hr] at h; cases h
      | ok q =>
        obtain ⟨o', a2⟩ := q
        rw [hr] at h
        cases h
        exact AsJson.calls_escaped k _ a2 o' rfl hr

omit [Arch] in
theorem notBegun_plain : ∀ (s : Str) (k : Nat), s.any escC = false → notBegun s k = s.drop k
  | s, 0, _ => by cases s <;> rfl
  | [], k + 1, _ => rfl
  | c :: s, k + 1, h => by
    rw [List.any_cons, Bool.or_eq_false_iff] at h
    rw [notBegun, writtenLen_plain h.1, Nat.add_sub_cancel, notBegun_plain s k h.2]
    rfl

theorem IterYields.collects {a : AsJson} {cs : Str} (h : IterYields AsJson.next a cs) : ∃ fuel af, a.collectFuel fuel = .ok (cs, af) := by
  induction h with
  | nil s hn => exact ⟨1, s, by rw [AsJson.collectFuel, hn]⟩
  | cons s s' c cs hn hy ih =>
    obtain ⟨f, af, ih⟩ := ih
    exact ⟨f + 1, af, by rw [AsJson.collectFuel, hn]; simp only []; rw [ih]⟩

/-- **C47, the exact condition, at every point.** After `k` calls of `next` on the iterator over the rendering `r` of a
converted text, the hint brackets the number of characters still to come if and only if that is at most the number of bytes of
those characters of the text whose rendering has not begun. -/
theorem C47_exact_everywhere_partial (s : Str) (j : JsonString) (r : Str) (hf : SliceFits (utf8 s)) (hj : FromText j s)
    (hr : j.asJson = .ok r) (k : Nat) : ∃ a, nextCalls AsJson.next k (AsJson.new j.source j.info) = .ok (answersOf r k, a)
      ∧ (a.HintOk ↔ r.length - k ≤ (utf8 (notBegun s k)).length) := by
  have hc : ∃ fuel af, (AsJson.new j.source j.info).collectFuel fuel = .ok (r, af) := by
    unfold JsonString.asJson AsJson.collect at hr
    cases hc : AsJson.collectFuel (6 * (AsJson.new j.source j.info).chars.length + 7) (AsJson.new j.source j.info) with
    | panic p => rw [hc] at hr; cases hr
    | ok q =>
      rw [hc] at hr
      obtain ⟨o, af⟩ := q
      cases hr
      exact ⟨_, af, hc⟩
  obtain ⟨fuel, af, hc⟩ := hc
  obtain ⟨a, h1, h2, h3⟩ := IterYields.calls AsJson.Inv (fun _ _ _ hi hn => (AsJson.next_left hn hi).1) k _ _
    (AsJson.new_inv _ _) (AsJson.yields hc)
  have hchars : a.chars = notBegun s k := by
    rcases fromText_cases hf hj with ⟨x, hx, rfl, _, _⟩ | ⟨x, hx, rfl, hx2⟩
    · rw [AsJson.calls_begun k _ _ _ (AsJson.new_inv _ _) (by intro h; cases h) h1]
      show notBegun x.asStr (k - 0) = _
      rw [hx, Nat.sub_zero]
    · rw [AsJson.calls_escaped k _ _ _ rfl h1, notBegun_plain _ _ hx2]
      show List.drop k x.asStr = _
      rw [hx]
  refine ⟨a, h1, ?_⟩
  obtain ⟨f1, a1, h4⟩ := IterYields.collects h3
  have hh : a.sizeHint.2 = some (utf8 (notBegun s k)).length := by
    show some (Str.len a.chars) = _
    rw [hchars]
    rfl
  have hl : (r.drop k).length = r.length - k := List.length_drop
  constructor
  · intro h
    rw [← hl]
    exact (h _ ⟨f1, a1, h4⟩).2 _ hh
  · intro h out ho
    refine ⟨C47_lower_bound_partial _ out ho, fun u hu => ?_⟩
    rw [hh] at hu
    cases hu
    obtain ⟨f2, a2, h5⟩ := ho
    rw [collect_det _ _ _ _ _ _ _ h5 h4, hl]
    exact h

end

section Examples
attribute [local instance] arch64

/-- four characters of text, two of them to be escaped -/
def iterEx : Res JsonString := JsonString.fromStr "a\n\u001e/".toList

example : ((iterEx >>= fun j => nextCalls Decoded.next 3 (Decoded.new j.source j.info)) >>= fun r => (.ok r.1 : Res _))
    = .ok [some 'a', some '\n', some '\u001e'] := by decide +kernel

example : ((iterEx >>= fun j => nextCalls AsJson.next 3 (AsJson.new j.source j.info)) >>= fun r => r.2.fmt stringWriter ['!'])
    = .ok ("!\\uo100/".toList, true) := by decide +kernel

/-- After `\\` of the line feed's escape: `n`, six characters and `/` are left, of two characters of text. -/
example : notBegun "a\n\u001e/".toList 2 = "\u001e/".toList := by decide +kernel
/-- A text with characters of several bytes: the hint is right at the start and wrong before the line feed. -/
example : notBegun "éé\n".toList 2 = ['\n'] ∧ ("éé\\n".toList).length ≤ (utf8 "éé\n".toList).length := by decide +kernel

end Examples

/-! ## Instances: each theorem above applied to a concrete case that meets its hypotheses -/
section Instances
attribute [local instance] arch64

example := C66_decoded strExJ strEx_obtainable
example := C66_display strExJ strEx_obtainable
example := C66_as_json rawLf ['\\', 'n'] (by decide +kernel) 1
example := C47_exact_everywhere_partial ['\n'] rawLf ['\\', 'n'] (by lit) (.inl (by decide +kernel)) (by decide +kernel) 1

end Instances
end JustJson
