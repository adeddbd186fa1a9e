import Verif.Spec.Opaque
import Verif.Lemmas.Engine
/-! # Tied delegates: the engine keeps the ties -/

namespace JustJson
set_option linter.unusedSectionVars false
section
variable [Arch]

section Basics
variable {σ τ ε δ α β α' β' : Type} {S : σ → τ → Prop} {Q : ε → δ → Prop} {R : α → β → Prop} {R' : α' → β' → Prop}

/-- One call after another. -/
theorem akin_bind {m : M σ ε α} {n : M τ δ β} {f : α → M σ ε α'} {k : β → M τ δ β'} {d : σ} {e : τ} (h : Akin S Q R (m d) (n e))
    (hf : ∀ a b d e, R a b → S d e → Akin S Q R' (f a d) (k b e)) : Akin S Q R' ((m >>= f) d) ((n >>= k) e) := by
  show Akin S Q R' (M.bind m f d) (M.bind n k e)
  unfold M.bind
  cases hm : m d <;> cases hn : n e <;> rw [hm, hn] at h <;> first | exact h.elim | skip
  · exact hf _ _ _ _ h.1 h.2
  · exact h
  · exact h

theorem akin_pure {a : α} {b : β} {d : σ} {e : τ} (h : R a b) (hs : S d e) :
    Akin S Q R ((pure a : M σ ε α) d) ((pure b : M τ δ β) e) := ⟨h, hs⟩

end Basics

variable {cfg : ParseConfig} {D E : Delegate} (T : Tie cfg D E)

/-- Related entries of the stack. -/
inductive Tie.Rung : Pending D → Pending E → Prop where
  | object {o o'} : T.object o o' → Rung (.object o) (.object o')
  | entry {c o o' k k'} : T.object o o' → T.key k k' → Rung (.entry c o k) (.entry c o' k')
  | array {c a a'} : T.array a a' → Rung (.array c a) (.array c a')

/-- Related stacks. -/
inductive Tie.Ladder : List (Pending D) → List (Pending E) → Prop where
  | nil : Ladder [] []
  | cons {p q st st'} : T.Rung p q → Ladder st st' → Ladder (p :: st) (q :: st')

/-- Related modes. -/
inductive Tie.Mood : Mode D → Mode E → Prop where
  | take {w st st'} : T.Ladder st st' → Mood (.take w st) (.take w st')
  | root {v v'} : T.value v v' → Mood (.root v) (.root v')

theorem ladder_length {st : List (Pending D)} {st' : List (Pending E)} (h : T.Ladder st st') : st.length = st'.length := by
  induction h with
  | nil => rfl
  | cons _ _ ih => simp [ih]

theorem attempt_akin {α β : Type} {R : α → β → Prop} {off : Nat} {m : M D.σ D.Err α} {n : M E.σ E.Err β} {d : D.σ} {e : E.σ}
    (h : Akin T.state T.error R (m d) (n e)) : Akin T.state T.parseError R (attempt D off m d) (attempt E off n e) := by
  unfold attempt
  cases hm : m d <;> cases hn : n e <;> rw [hm, hn] at h <;> first | exact h.elim | skip
  · exact h
  · exact ⟨.inr ⟨_, _, _, rfl, rfl, h.1⟩, h.2⟩
  · exact h

theorem ask_akin {α : Type} {q : D.σ → Res α} {r : E.σ → Res α} {d : D.σ} {e : E.σ} (h : q d = r e) (hs : T.state d e) :
    Akin T.state T.parseError Eq (ask D q d) (ask E r e) := by
  unfold ask
  rw [h]
  cases r e with
  | ok a => exact ⟨rfl, hs⟩
  | panic p => exact rfl

theorem refuse_akin {α β : Type} {R : α → β → Prop} {off : Nat} (k : ErrorKind Empty) {d : D.σ} {e : E.σ} (hs : T.state d e) :
    Akin T.state T.parseError R (refuse D off (k.intoFallable) d : Out _ _ α) (refuse E off (k.intoFallable) e : Out _ _ β) :=
  ⟨.inl ⟨⟨off, k⟩, rfl, rfl⟩, hs⟩

theorem handOver_akin {after : Nat} {v v'} (hv : T.value v v') {st st'} (h : T.Ladder st st') {d e} (hs : T.state d e) :
    Akin T.state T.parseError T.Mood (handOver cfg D after v st d) (handOver cfg E after v' st' e) := by
  cases h with
  | nil =>
    unfold handOver
    split
    · exact akin_pure (.root hv) hs
    · rename_i hc
      refine akin_bind (ask_akin T (T.kindOf (by simpa using hc) _ _ _ _ hv hs) hs) ?_
      rintro k _ d e rfl hs
      cases k
      case object => exact akin_pure (.root hv) hs
      case array => exact akin_pure (.root hv) hs
      all_goals exact refuse_akin T .payloadsShouldBeObjectOrArray hs
  | cons hp h =>
    cases hp with
    | object ho => exact akin_pure (.take (.cons (.object ho) h)) hs
    | entry ho hk =>
      refine akin_bind (attempt_akin T (T.objectValue _ _ _ _ _ _ _ _ ho hk hv hs)) ?_
      intro o o' d e ho hs
      exact akin_pure (.take (.cons (.object ho) h)) hs
    | array ha =>
      refine akin_bind (attempt_akin T (T.arrayValue _ _ _ _ _ _ ha hv hs)) ?_
      intro a a' d e ha hs
      exact akin_pure (.take (.cons (.array ha) h)) hs

theorem takeLeaf_akin {off after : Nat} {st st'} (h : T.Ladder st st') {m n} {d e} (hm : Akin T.state T.error T.value (m d) (n e)) :
    Akin T.state T.parseError T.Mood (takeLeaf cfg D st off after m d) (takeLeaf cfg E st' off after n e) := by
  unfold takeLeaf
  refine akin_bind (attempt_akin T hm) ?_
  intro v v' d e hv hs
  exact handOver_akin T hv h hs

theorem leaveArray_akin {bracket after : Nat} {a a'} (ha : T.array a a') {st st'} (h : T.Ladder st st') {d e} (hs : T.state d e) :
    Akin T.state T.parseError T.Mood (leaveArray cfg D bracket after a st d) (leaveArray cfg E bracket after a' st' e) := by
  unfold leaveArray
  refine akin_bind (attempt_akin T (T.endArray _ _ _ _ ha hs)) ?_
  intro v v' d e hv hs
  exact handOver_akin T hv h hs

theorem leaveObject_akin {after : Nat} {o o'} (ho : T.object o o') {st st'} (h : T.Ladder st st') {d e} (hs : T.state d e) :
    Akin T.state T.parseError T.Mood (leaveObject cfg D after o st d) (leaveObject cfg E after o' st' e) := by
  unfold leaveObject
  refine akin_bind (attempt_akin T (T.endObject _ _ _ _ ho hs)) ?_
  intro v v' d e hv hs
  exact handOver_akin T hv h hs

theorem fullUp_akin {st st'} (h : T.Ladder st st') : fullUp cfg D st = fullUp cfg E st' := by
  unfold fullUp
  rw [ladder_length T h]

theorem takeStart_akin {off after : Nat} (t : Token) {st st'} (h : T.Ladder st st') {d e} (hs : T.state d e) :
    Akin T.state T.parseError T.Mood (takeStart cfg D st off after t d) (takeStart cfg E st' off after t e) := by
  cases t with
  | null => exact takeLeaf_akin T h (T.null _ _ hs)
  | bool b => exact takeLeaf_akin T h (T.boolean _ _ _ hs)
  | number b => exact takeLeaf_akin T h (T.number _ _ _ hs)
  | string b => exact takeLeaf_akin T h (T.string _ _ _ hs)
  | object =>
    unfold takeStart
    rw [fullUp_akin T h]
    split
    · exact refuse_akin T .recursionLimitReached hs
    · refine akin_bind (attempt_akin T (T.beginObject _ _ hs)) ?_
      intro o o' d e ho hs
      exact akin_pure (.take (.cons (.object ho) h)) hs
  | array =>
    unfold takeStart
    rw [fullUp_akin T h]
    split
    · exact refuse_akin T .recursionLimitReached hs
    · refine akin_bind (attempt_akin T (T.beginArray _ _ hs)) ?_
      intro o o' d e ho hs
      exact akin_pure (.take (.cons (.array ho) h)) hs
  | objectEnd => exact refuse_akin T (.unexpected 0x7D) hs
  | arrayEnd => exact refuse_akin T (.unexpected 0x5D) hs
  | colon => exact refuse_akin T (.unexpected 0x3A) hs
  | comma => exact refuse_akin T (.unexpected 0x2C) hs

theorem engineStep_akin (x : Scan) (w : Task) (t : Token) {st st'} (h : T.Ladder st st') {d e} (hs : T.state d e) :
    Akin T.state T.parseError T.Mood (engineStep cfg D x w st t d) (engineStep cfg E x w st' t e) := by
  cases w with
  | value => exact takeStart_akin T t h hs
  | element =>
    cases h with
    | nil => exact takeStart_akin T t .nil hs
    | cons hp h =>
      cases hp with
      | object ho => cases t <;> simp only [engineStep] <;> exact takeStart_akin T _ (.cons (.object ho) h) hs
      | entry ho hk => cases t <;> simp only [engineStep] <;> exact takeStart_akin T _ (.cons (.entry ho hk) h) hs
      | array ha =>
        cases t
        case arrayEnd =>
          simp only [engineStep]
          split
          · exact leaveArray_akin T ha h hs
          · rename_i hc
            refine akin_bind (ask_akin T (T.arrayIsEmpty (by simpa using hc) _ _ _ _ ha hs) hs) ?_
            rintro b _ d e rfl hs
            cases b
            · exact refuse_akin T .illegalTrailingComma hs
            · exact leaveArray_akin T ha h hs
        all_goals simp only [engineStep]
        all_goals exact takeStart_akin T _ (.cons (.array ha) h) hs
  | colon =>
    cases h with
    | nil => cases t <;> simp only [engineStep] <;> exact refuse_akin T .expectedColon hs
    | cons hp h =>
      cases hp with
      | object ho => cases t <;> simp only [engineStep] <;> exact refuse_akin T .expectedColon hs
      | entry ho hk =>
        cases t
        case colon => exact akin_pure (.take (.cons (.entry ho hk) h)) hs
        all_goals exact refuse_akin T .expectedColon hs
      | array ha => cases t <;> simp only [engineStep] <;> exact refuse_akin T .expectedColon hs
  | key =>
    cases h with
    | nil => cases t <;> simp only [engineStep] <;> first | exact refuse_akin T .objectKeysMustBeStrings hs | exact refuse_akin T .expectedObjectKey hs
    | cons hp h =>
      cases hp with
      | entry ho hk => cases t <;> simp only [engineStep] <;> first | exact refuse_akin T .objectKeysMustBeStrings hs | exact refuse_akin T .expectedObjectKey hs
      | array ha => cases t <;> simp only [engineStep] <;> first | exact refuse_akin T .objectKeysMustBeStrings hs | exact refuse_akin T .expectedObjectKey hs
      | object ho =>
        cases t
        case objectEnd =>
          simp only [engineStep]
          split
          · exact leaveObject_akin T ho h hs
          · rename_i hc
            refine akin_bind (ask_akin T (T.objectIsEmpty (by simpa using hc) _ _ _ _ ho hs) hs) ?_
            rintro b _ d e rfl hs
            cases b
            · exact refuse_akin T .illegalTrailingComma hs
            · exact leaveObject_akin T ho h hs
        case string s =>
          simp only [engineStep]
          refine akin_bind (attempt_akin T (T.objectKey _ _ s _ _ ho hs)) ?_
          rintro ⟨o, k⟩ ⟨o', k'⟩ d e ⟨ho, hk⟩ hs
          exact akin_pure (.take (.cons (.entry ho hk) h)) hs
        all_goals simp only [engineStep]
        all_goals first | exact refuse_akin T .objectKeysMustBeStrings hs | exact refuse_akin T .expectedObjectKey hs
  | separator =>
    cases h with
    | nil => cases t <;> simp only [engineStep] <;> exact refuse_akin T .expectedCommaOrEndOfObject hs
    | cons hp h =>
      cases hp with
      | entry ho hk => cases t <;> simp only [engineStep] <;> exact refuse_akin T .expectedCommaOrEndOfObject hs
      | array ha =>
        cases t
        case arrayEnd => exact leaveArray_akin T ha h hs
        case comma => exact akin_pure (.take (.cons (.array ha) h)) hs
        all_goals exact refuse_akin T .expectedCommaOrEndOfArray hs
      | object ho =>
        cases t
        case objectEnd => exact leaveObject_akin T ho h hs
        case comma => exact akin_pure (.take (.cons (.object ho) h)) hs
        all_goals exact refuse_akin T .expectedCommaOrEndOfObject hs

theorem blame_akin (w : Task) (x : Error Empty) {st st'} (h : T.Ladder st st') : T.parseError (blame D w st x) (blame E w st' x) := by
  obtain ⟨off, k⟩ := x
  have mk : ∀ k : ErrorKind Empty, T.parseError ⟨off, sameKind k⟩ ⟨off, sameKind k⟩ := fun k => .inl ⟨⟨off, k⟩, rfl, rfl⟩
  cases w
  case colon => exact mk .expectedColon
  all_goals
    cases h with
    | nil => exact mk k
    | cons hp h =>
      cases hp <;> cases k <;> first | exact mk .unclosedArray | exact mk .unclosedObject | exact mk _

theorem engine_akin {len : Nat} : ∀ (xs : List Scan) {m m'}, T.Mood m m' → ∀ {d e}, T.state d e →
    Akin T.state T.parseError T.value (engine cfg D len xs m d) (engine cfg E len xs m' e)
  | [], _, _, _, _, _, _ => rfl
  | x :: xs, _, _, .root hv, d, e, hs => by
    simp only [engine]
    split
    · exact akin_pure hv hs
    · exact refuse_akin T .trailingNonWhitespace hs
  | x :: xs, _, _, .take h, d, e, hs => by
    simp only [engine]
    cases x.item
    · exact ⟨blame_akin T _ _ h, hs⟩
    · refine akin_bind (engineStep_akin T x _ _ h hs) ?_
      intro m m' d e hm hs
      exact engine_akin xs hm hs

/-- Tied delegates make parses that are alike. -/
theorem parse_akin {g : Bool} {src : List UInt8} (h : Input g src) {d : D.σ} {e : E.σ} (hs : T.state d e) :
    Akin T.state T.parseError T.value (onlyDelegate (parseBytes g src cfg D d)) (onlyDelegate (parseBytes g src cfg E e)) := by
  rw [engine_parse h d, engine_parse h e]
  exact engine_akin T _ (.take .nil) hs

/-! ## The callbacks that tied delegates hear -/

theorem listed_akin {σ τ ε δ α β : Type} {S : σ → τ → Prop} {Q : ε → δ → Prop} {R : α → β → Prop} {m : M σ ε α} {n : M τ δ β} (ev : Event)
    {s : σ × List Event} {t : τ × List Event} (h : Akin S Q R (m s.1) (n t.1)) (hl : s.2 = t.2) :
    Akin (fun (s : σ × List Event) (t : τ × List Event) => S s.1 t.1 ∧ s.2 = t.2) Q R (listed ev m s) (listed ev n t) := by
  unfold listed
  cases hm : m s.1 <;> cases hn : n t.1 <;> rw [hm, hn] at h <;> first | exact h.elim | skip
  · exact ⟨h.1, h.2, by rw [hl]⟩
  · exact ⟨h.1, h.2, by rw [hl]⟩
  · exact h

/-- Delegates stay tied when the callbacks are listed, and the lists are the same. -/
def Tie.logged : Tie cfg (logged D) (logged E) where
  state s t := T.state s.1 t.1 ∧ s.2 = t.2
  value := T.value
  object := T.object
  array := T.array
  key := T.key
  error := T.error
  null _ _ h := listed_akin _ (T.null _ _ h.1) h.2
  boolean _ _ _ h := listed_akin _ (T.boolean _ _ _ h.1) h.2
  number _ _ _ h := listed_akin _ (T.number _ _ _ h.1) h.2
  string _ _ _ h := listed_akin _ (T.string _ _ _ h.1) h.2
  beginObject _ _ h := listed_akin _ (T.beginObject _ _ h.1) h.2
  objectKey _ _ _ _ _ ho h := listed_akin _ (T.objectKey _ _ _ _ _ ho h.1) h.2
  objectValue _ _ _ _ _ _ _ _ ho hk hv h := listed_akin _ (T.objectValue _ _ _ _ _ _ _ _ ho hk hv h.1) h.2
  objectIsEmpty hc _ _ _ _ ho h := T.objectIsEmpty hc _ _ _ _ ho h.1
  endObject _ _ _ _ ho h := listed_akin _ (T.endObject _ _ _ _ ho h.1) h.2
  beginArray _ _ h := listed_akin _ (T.beginArray _ _ h.1) h.2
  arrayValue _ _ _ _ _ _ ha hv h := listed_akin _ (T.arrayValue _ _ _ _ _ _ ha hv h.1) h.2
  arrayIsEmpty hc _ _ _ _ ha h := T.arrayIsEmpty hc _ _ _ _ ha h.1
  endArray _ _ _ _ ha h := listed_akin _ (T.endArray _ _ _ _ ha h.1) h.2
  kindOf hc _ _ _ _ hv h := T.kindOf hc _ _ _ _ hv h.1

theorem heard_akin {g : Bool} {src : List UInt8} (h : Input g src) {d : D.σ} {e : E.σ} (hs : T.state d e) (l : List Event) :
    heard (parseBytes g src cfg (logged D) (d, l)) = heard (parseBytes g src cfg (logged E) (e, l))
    ∧ (delegateFailed (parseBytes g src cfg (logged D) (d, l)) ↔ delegateFailed (parseBytes g src cfg (logged E) (e, l))) := by
  have hp := parse_akin T.logged h (d := (d, l)) (e := (e, l)) ⟨hs, rfl⟩
  cases h1 : parseBytes g src cfg (logged D) (d, l) <;> cases h2 : parseBytes g src cfg (logged E) (e, l) <;> rw [h1, h2] at hp <;>
    first | exact hp.elim | skip
  · exact ⟨congrArg some hp.2.2, Iff.rfl⟩
  · refine ⟨congrArg some hp.2.2, ?_⟩
    simp only [delegateFailed]
    rcases hp.1 with ⟨z, rfl, rfl⟩ | ⟨off, a, b, rfl, rfl, _⟩
    · obtain ⟨o, k⟩ := z
      cases k <;> first | (constructor <;> (rintro ⟨x, hx⟩; cases hx)) | (rename_i x; exact x.elim)
    · exact ⟨fun _ => ⟨b, rfl⟩, fun _ => ⟨a, rfl⟩⟩
  · exact ⟨rfl, Iff.rfl⟩

end
end JustJson
