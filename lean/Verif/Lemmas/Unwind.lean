import Verif.Spec.Unwind
import Verif.Lemmas.Engine
import Verif.Lemmas.Opaque
/-! # Delegates of which one may panic where the other fails: the engine keeps them together -/

namespace JustJson
set_option linter.unusedSectionVars false
section
variable [Arch]

/-- Alike (`Akin`), or an error and a panic that is the same. -/
def Fell {σ τ ε δ α β : Type} (S : σ → τ → Prop) (Q : ε → δ → Prop) (L : ε → Panic → Prop) (R : α → β → Prop) :
    Out σ ε α → Out τ δ β → Prop
  | .ok a s, .ok b t => R a b ∧ S s t
  | .err x s, .err y t => Q x y ∧ S s t
  | .err x _, .panic p => L x p
  | .panic p, .panic q => p = q
  | _, _ => False

/-- Like `Tie`, but the second may panic where the first fails. -/
structure Fall (cfg : ParseConfig) (D E : Delegate) where
  state : D.σ → E.σ → Prop
  value : D.Value → E.Value → Prop
  object : D.Object → E.Object → Prop
  array : D.Array → E.Array → Prop
  key : D.Key → E.Key → Prop
  error : D.Err → E.Err → Prop
  lost : D.Err → Panic → Prop
  null : ∀ d e, state d e → Fell state error lost value (D.null d) (E.null e)
  boolean : ∀ b d e, state d e → Fell state error lost value (D.boolean b d) (E.boolean b e)
  number : ∀ n d e, state d e → Fell state error lost value (D.number n d) (E.number n e)
  string : ∀ s d e, state d e → Fell state error lost value (D.string s d) (E.string s e)
  beginObject : ∀ d e, state d e → Fell state error lost object (D.beginObject d) (E.beginObject e)
  objectKey : ∀ o o' s d e, object o o' → state d e →
    Fell state error lost (fun a b => object a.1 b.1 ∧ key a.2 b.2) (D.objectKey o s d) (E.objectKey o' s e)
  objectValue : ∀ o o' k k' v v' d e, object o o' → key k k' → value v v' → state d e →
    Fell state error lost object (D.objectValue o k v d) (E.objectValue o' k' v' e)
  objectIsEmpty : cfg.allowTrailingCommas = false → ∀ o o' d e, object o o' → state d e → D.objectIsEmpty d o = E.objectIsEmpty e o'
  endObject : ∀ o o' d e, object o o' → state d e → Fell state error lost value (D.endObject o d) (E.endObject o' e)
  beginArray : ∀ d e, state d e → Fell state error lost array (D.beginArray d) (E.beginArray e)
  arrayValue : ∀ a a' v v' d e, array a a' → value v v' → state d e →
    Fell state error lost array (D.arrayValue a v d) (E.arrayValue a' v' e)
  arrayIsEmpty : cfg.allowTrailingCommas = false → ∀ a a' d e, array a a' → state d e → D.arrayIsEmpty d a = E.arrayIsEmpty e a'
  endArray : ∀ a a' d e, array a a' → state d e → Fell state error lost value (D.endArray a d) (E.endArray a' e)
  kindOf : cfg.allowAllTypesAtRoot = false → ∀ v v' d e, value v v' → state d e → D.kindOf d v = E.kindOf e v'

/-- errors of whole parses -/
def Fall.parseError {cfg : ParseConfig} {D E : Delegate} (T : Fall cfg D E) (x : Error D.Err) (y : Error E.Err) : Prop :=
  (∃ z : Error Empty, x = sameError z ∧ y = sameError z)
  ∨ ∃ off a b, x = ⟨off, .errorFromDelegate a⟩ ∧ y = ⟨off, .errorFromDelegate b⟩ ∧ T.error a b

/-- panics of whole parses -/
def Fall.parseLost {cfg : ParseConfig} {D E : Delegate} (T : Fall cfg D E) (x : Error D.Err) (p : Panic) : Prop :=
  ∃ off a, x = ⟨off, .errorFromDelegate a⟩ ∧ T.lost a p

section Basics
variable {σ τ ε δ α β α' β' : Type} {S : σ → τ → Prop} {Q : ε → δ → Prop} {L : ε → Panic → Prop} {R : α → β → Prop} {R' : α' → β' → Prop}

/-- One call after another. -/
theorem fell_bind {m : M σ ε α} {n : M τ δ β} {f : α → M σ ε α'} {k : β → M τ δ β'} {d : σ} {e : τ} (h : Fell S Q L R (m d) (n e))
    (hf : ∀ a b d e, R a b → S d e → Fell S Q L R' (f a d) (k b e)) : Fell S Q L R' ((m >>= f) d) ((n >>= k) e) := by
  show Fell S Q L R' (M.bind m f d) (M.bind n k e)
  unfold M.bind
  cases hm : m d <;> cases hn : n e <;> rw [hm, hn] at h <;> first | exact h.elim | skip
  · exact hf _ _ _ _ h.1 h.2
  · exact h
  · exact h
  · exact h

theorem fell_pure {a : α} {b : β} {d : σ} {e : τ} (h : R a b) (hs : S d e) :
    Fell S Q L R ((pure a : M σ ε α) d) ((pure b : M τ δ β) e) := ⟨h, hs⟩

end Basics

variable {cfg : ParseConfig} {D E : Delegate} (T : Fall cfg D E)

/-- Related entries of the stack. -/
inductive Fall.Rung : Pending D → Pending E → Prop where
  | object {o o'} : T.object o o' → Rung (.object o) (.object o')
  | entry {c o o' k k'} : T.object o o' → T.key k k' → Rung (.entry c o k) (.entry c o' k')
  | array {c a a'} : T.array a a' → Rung (.array c a) (.array c a')

/-- Related stacks. -/
inductive Fall.Ladder : List (Pending D) → List (Pending E) → Prop where
  | nil : Ladder [] []
  | cons {p q st st'} : T.Rung p q → Ladder st st' → Ladder (p :: st) (q :: st')

/-- Related modes. -/
inductive Fall.Mood : Mode D → Mode E → Prop where
  | take {w st st'} : T.Ladder st st' → Mood (.take w st) (.take w st')
  | root {v v'} : T.value v v' → Mood (.root v) (.root v')

theorem ladder_fell {st : List (Pending D)} {st' : List (Pending E)} (h : T.Ladder st st') : st.length = st'.length := by
  induction h with
  | nil => rfl
  | cons _ _ ih => simp [ih]

theorem attempt_fell {α β : Type} {R : α → β → Prop} {off : Nat} {m : M D.σ D.Err α} {n : M E.σ E.Err β} {d : D.σ} {e : E.σ}
    (h : Fell T.state T.error T.lost R (m d) (n e)) : Fell T.state T.parseError T.parseLost R (attempt D off m d) (attempt E off n e) := by
  unfold attempt
  cases hm : m d <;> cases hn : n e <;> rw [hm, hn] at h <;> first | exact h.elim | skip
  · exact h
  · exact ⟨.inr ⟨_, _, _, rfl, rfl, h.1⟩, h.2⟩
  · exact ⟨_, _, rfl, h⟩
  · exact h

theorem ask_fell {α : Type} {q : D.σ → Res α} {r : E.σ → Res α} {d : D.σ} {e : E.σ} (h : q d = r e) (hs : T.state d e) :
    Fell T.state T.parseError T.parseLost Eq (ask D q d) (ask E r e) := by
  unfold ask
  rw [h]
  cases r e with
  | ok a => exact ⟨rfl, hs⟩
  | panic p => exact rfl

theorem refuse_fell {α β : Type} {R : α → β → Prop} {off : Nat} (k : ErrorKind Empty) {d : D.σ} {e : E.σ} (hs : T.state d e) :
    Fell T.state T.parseError T.parseLost R (refuse D off (k.intoFallable) d : Out _ _ α) (refuse E off (k.intoFallable) e : Out _ _ β) :=
  ⟨.inl ⟨⟨off, k⟩, rfl, rfl⟩, hs⟩

theorem handOver_fell {after : Nat} {v v'} (hv : T.value v v') {st st'} (h : T.Ladder st st') {d e} (hs : T.state d e) :
    Fell T.state T.parseError T.parseLost T.Mood (handOver cfg D after v st d) (handOver cfg E after v' st' e) := by
  cases h with
  | nil =>
    unfold handOver
    split
    · exact fell_pure (.root hv) hs
    · rename_i hc
      refine fell_bind (ask_fell T (T.kindOf (by simpa using hc) _ _ _ _ hv hs) hs) ?_
      rintro k _ d e rfl hs
      cases k
      case object => exact fell_pure (.root hv) hs
      case array => exact fell_pure (.root hv) hs
      all_goals exact refuse_fell T .payloadsShouldBeObjectOrArray hs
  | cons hp h =>
    cases hp with
    | object ho => exact fell_pure (.take (.cons (.object ho) h)) hs
    | entry ho hk =>
      refine fell_bind (attempt_fell T (T.objectValue _ _ _ _ _ _ _ _ ho hk hv hs)) ?_
      intro o o' d e ho hs
      exact fell_pure (.take (.cons (.object ho) h)) hs
    | array ha =>
      refine fell_bind (attempt_fell T (T.arrayValue _ _ _ _ _ _ ha hv hs)) ?_
      intro a a' d e ha hs
      exact fell_pure (.take (.cons (.array ha) h)) hs

theorem takeLeaf_fell {off after : Nat} {st st'} (h : T.Ladder st st') {m n} {d e} (hm : Fell T.state T.error T.lost T.value (m d) (n e)) :
    Fell T.state T.parseError T.parseLost T.Mood (takeLeaf cfg D st off after m d) (takeLeaf cfg E st' off after n e) := by
  unfold takeLeaf
  refine fell_bind (attempt_fell T hm) ?_
  intro v v' d e hv hs
  exact handOver_fell T hv h hs

theorem leaveArray_fell {bracket after : Nat} {a a'} (ha : T.array a a') {st st'} (h : T.Ladder st st') {d e} (hs : T.state d e) :
    Fell T.state T.parseError T.parseLost T.Mood (leaveArray cfg D bracket after a st d) (leaveArray cfg E bracket after a' st' e) := by
  unfold leaveArray
  refine fell_bind (attempt_fell T (T.endArray _ _ _ _ ha hs)) ?_
  intro v v' d e hv hs
  exact handOver_fell T hv h hs

theorem leaveObject_fell {after : Nat} {o o'} (ho : T.object o o') {st st'} (h : T.Ladder st st') {d e} (hs : T.state d e) :
    Fell T.state T.parseError T.parseLost T.Mood (leaveObject cfg D after o st d) (leaveObject cfg E after o' st' e) := by
  unfold leaveObject
  refine fell_bind (attempt_fell T (T.endObject _ _ _ _ ho hs)) ?_
  intro v v' d e hv hs
  exact handOver_fell T hv h hs

theorem fullUp_fell {st st'} (h : T.Ladder st st') : fullUp cfg D st = fullUp cfg E st' := by
  unfold fullUp
  rw [ladder_fell T h]

theorem takeStart_fell {off after : Nat} (t : Token) {st st'} (h : T.Ladder st st') {d e} (hs : T.state d e) :
    Fell T.state T.parseError T.parseLost T.Mood (takeStart cfg D st off after t d) (takeStart cfg E st' off after t e) := by
  cases t with
  | null => exact takeLeaf_fell T h (T.null _ _ hs)
  | bool b => exact takeLeaf_fell T h (T.boolean _ _ _ hs)
  | number b => exact takeLeaf_fell T h (T.number _ _ _ hs)
  | string b => exact takeLeaf_fell T h (T.string _ _ _ hs)
  | object =>
    unfold takeStart
    rw [fullUp_fell T h]
    split
    · exact refuse_fell T .recursionLimitReached hs
    · refine fell_bind (attempt_fell T (T.beginObject _ _ hs)) ?_
      intro o o' d e ho hs
      exact fell_pure (.take (.cons (.object ho) h)) hs
  | array =>
    unfold takeStart
    rw [fullUp_fell T h]
    split
    · exact refuse_fell T .recursionLimitReached hs
    · refine fell_bind (attempt_fell T (T.beginArray _ _ hs)) ?_
      intro o o' d e ho hs
      exact fell_pure (.take (.cons (.array ho) h)) hs
  | objectEnd => exact refuse_fell T (.unexpected 0x7D) hs
  | arrayEnd => exact refuse_fell T (.unexpected 0x5D) hs
  | colon => exact refuse_fell T (.unexpected 0x3A) hs
  | comma => exact refuse_fell T (.unexpected 0x2C) hs

theorem engineStep_fell (x : Scan) (w : Task) (t : Token) {st st'} (h : T.Ladder st st') {d e} (hs : T.state d e) :
    Fell T.state T.parseError T.parseLost T.Mood (engineStep cfg D x w st t d) (engineStep cfg E x w st' t e) := by
  cases w with
  | value => exact takeStart_fell T t h hs
  | element =>
    cases h with
    | nil => exact takeStart_fell T t .nil hs
    | cons hp h =>
      cases hp with
      | object ho => cases t <;> simp only [engineStep] <;> exact takeStart_fell T _ (.cons (.object ho) h) hs
      | entry ho hk => cases t <;> simp only [engineStep] <;> exact takeStart_fell T _ (.cons (.entry ho hk) h) hs
      | array ha =>
        cases t
        case arrayEnd =>
          simp only [engineStep]
          split
          · exact leaveArray_fell T ha h hs
          · rename_i hc
            refine fell_bind (ask_fell T (T.arrayIsEmpty (by simpa using hc) _ _ _ _ ha hs) hs) ?_
            rintro b _ d e rfl hs
            cases b
            · exact refuse_fell T .illegalTrailingComma hs
            · exact leaveArray_fell T ha h hs
        all_goals simp only [engineStep]
        all_goals exact takeStart_fell T _ (.cons (.array ha) h) hs
  | colon =>
    cases h with
    | nil => cases t <;> simp only [engineStep] <;> exact refuse_fell T .expectedColon hs
    | cons hp h =>
      cases hp with
      | object ho => cases t <;> simp only [engineStep] <;> exact refuse_fell T .expectedColon hs
      | entry ho hk =>
        cases t
        case colon => exact fell_pure (.take (.cons (.entry ho hk) h)) hs
        all_goals exact refuse_fell T .expectedColon hs
      | array ha => cases t <;> simp only [engineStep] <;> exact refuse_fell T .expectedColon hs
  | key =>
    cases h with
    | nil => cases t <;> simp only [engineStep] <;> first | exact refuse_fell T .objectKeysMustBeStrings hs | exact refuse_fell T .expectedObjectKey hs
    | cons hp h =>
      cases hp with
      | entry ho hk => cases t <;> simp only [engineStep] <;> first | exact refuse_fell T .objectKeysMustBeStrings hs | exact refuse_fell T .expectedObjectKey hs
      | array ha => cases t <;> simp only [engineStep] <;> first | exact refuse_fell T .objectKeysMustBeStrings hs | exact refuse_fell T .expectedObjectKey hs
      | object ho =>
        cases t
        case objectEnd =>
          simp only [engineStep]
          split
          · exact leaveObject_fell T ho h hs
          · rename_i hc
            refine fell_bind (ask_fell T (T.objectIsEmpty (by simpa using hc) _ _ _ _ ho hs) hs) ?_
            rintro b _ d e rfl hs
            cases b
            · exact refuse_fell T .illegalTrailingComma hs
            · exact leaveObject_fell T ho h hs
        case string s =>
          simp only [engineStep]
          refine fell_bind (attempt_fell T (T.objectKey _ _ s _ _ ho hs)) ?_
          rintro ⟨o, k⟩ ⟨o', k'⟩ d e ⟨ho, hk⟩ hs
          exact fell_pure (.take (.cons (.entry ho hk) h)) hs
        all_goals simp only [engineStep]
        all_goals first | exact refuse_fell T .objectKeysMustBeStrings hs | exact refuse_fell T .expectedObjectKey hs
  | separator =>
    cases h with
    | nil => cases t <;> simp only [engineStep] <;> exact refuse_fell T .expectedCommaOrEndOfObject hs
    | cons hp h =>
      cases hp with
      | entry ho hk => cases t <;> simp only [engineStep] <;> exact refuse_fell T .expectedCommaOrEndOfObject hs
      | array ha =>
        cases t
        case arrayEnd => exact leaveArray_fell T ha h hs
        case comma => exact fell_pure (.take (.cons (.array ha) h)) hs
        all_goals exact refuse_fell T .expectedCommaOrEndOfArray hs
      | object ho =>
        cases t
        case objectEnd => exact leaveObject_fell T ho h hs
        case comma => exact fell_pure (.take (.cons (.object ho) h)) hs
        all_goals exact refuse_fell T .expectedCommaOrEndOfObject hs

theorem blame_fell (w : Task) (x : Error Empty) {st st'} (h : T.Ladder st st') : T.parseError (blame D w st x) (blame E w st' x) := by
  obtain ⟨off, k⟩ := x
  have mk : ∀ k : ErrorKind Empty, T.parseError ⟨off, sameKind k⟩ ⟨off, sameKind k⟩ := fun k => .inl ⟨⟨off, k⟩, rfl, rfl⟩
  cases w
  case colon => exact mk .expectedColon
  all_goals
    cases h with
    | nil => exact mk k
    | cons hp h =>
      cases hp <;> cases k <;> first | exact mk .unclosedArray | exact mk .unclosedObject | exact mk _

theorem engine_fell {len : Nat} : ∀ (xs : List Scan) {m m'}, T.Mood m m' → ∀ {d e}, T.state d e →
    Fell T.state T.parseError T.parseLost T.value (engine cfg D len xs m d) (engine cfg E len xs m' e)
  | [], _, _, _, _, _, _ => rfl
  | x :: xs, _, _, .root hv, d, e, hs => by
    simp only [engine]
    split
    · exact fell_pure hv hs
    · exact refuse_fell T .trailingNonWhitespace hs
  | x :: xs, _, _, .take h, d, e, hs => by
    simp only [engine]
    cases x.item
    · exact ⟨blame_fell T _ _ h, hs⟩
    · refine fell_bind (engineStep_fell T x _ _ h hs) ?_
      intro m m' d e hm hs
      exact engine_fell xs hm hs

/-- Tied delegates make parses that are alike. -/
theorem parse_fell {g : Bool} {src : List UInt8} (h : Input g src) {d : D.σ} {e : E.σ} (hs : T.state d e) :
    Fell T.state T.parseError T.parseLost T.value (onlyDelegate (parseBytes g src cfg D d)) (onlyDelegate (parseBytes g src cfg E e)) := by
  rw [engine_parse h d, engine_parse h e]
  exact engine_fell T _ (.take .nil) hs

end
end JustJson
