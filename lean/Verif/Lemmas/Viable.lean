import Verif.Spec.Viable
import Verif.Lemmas.Told
import Verif.Lemmas.Errors
/-! # Where a parse gives up -/

namespace JustJson
open Spec

set_option linter.unusedSectionVars false

section
variable {src : List UInt8} [Arch] {g : Bool} {cfg : ParseConfig}

theorem pwp_and {σ ε α : Type} {out : Out σ ε α} {P P' : α → σ → Prop} {Q Q' : ε → σ → Prop} {N N' : Panic → Prop}
    (h : PWp out P Q N) (h' : PWp out P' Q' N') : PWp out (fun a s => P a s ∧ P' a s) Q N := by
  cases out with
  | ok a s => exact ⟨h, h'⟩
  | err e s => exact h
  | panic p => exact h

/-- admitted, whatever the root -/
abbrev Adm (cfg : ParseConfig) (t : List UInt8) (j : Json) : Prop := Accepted { cfg with allowAllTypesAtRoot := true } t j

/-- the tokenizer gets to `off` -/
def Reach (g : Bool) (src : List UInt8) (off : Nat) : Prop := ∃ ts, TokYields src g 0 ts off

/-- the text can be completed, also after more whitespace -/
def Roomy (cfg : ParseConfig) (P : List UInt8) : Prop := ∀ w, Ws w → Completable cfg (P ++ w)

/-- the claim -/
def Quit (g : Bool) (src : List UInt8) (cfg : ParseConfig) (e : Error Empty) : Prop :=
  ∃ p, Reach g src p ∧ p ≤ src.length ∧ Roomy cfg (src.take p) ∧ GaveUp g src cfg p e

/-- a text can be put between `P` and `C` -/
def HoleAt (cfg : ParseConfig) (P C : List UInt8) (d : Nat) : Prop :=
  ∀ t j, Text cfg.allowTrailingCommas t j → (cfg.recursionLimit.isSome → j.depth ≤ d) → ∃ J, Adm cfg (P ++ (t ++ C)) J

/-- elements can -/
def ElemsAt (cfg : ParseConfig) (P C : List UInt8) (d : Nat) : Prop :=
  ∀ b js, GElems cfg.allowTrailingCommas b js → (cfg.recursionLimit.isSome → depthList js ≤ d) → ∃ J, Adm cfg (P ++ (b ++ C)) J

/-- members can -/
def MembersAt (cfg : ParseConfig) (P C : List UInt8) (d : Nat) : Prop :=
  ∀ b ms, GMembers cfg.allowTrailingCommas b ms → (cfg.recursionLimit.isSome → depthMembers ms ≤ d) → ∃ J, Adm cfg (P ++ (b ++ C)) J

theorem gv_null {tc : Bool} : GValue tc [0x6E, 0x75, 0x6C, 0x6C] .null := .null

theorem HoleAt.completable {P C : List UInt8} {d : Nat} (h : HoleAt cfg P C d) : Roomy cfg P := by
  intro w hw
  obtain ⟨J, hJ⟩ := h _ .null ⟨w, _, [], hw, .null, ws_nil, rfl⟩ (fun _ => Nat.zero_le _)
  exact ⟨[0x6E, 0x75, 0x6C, 0x6C] ++ C, J, by simpa [List.append_assoc] using hJ⟩

theorem ElemsAt.completable {P C : List UInt8} {d : Nat} (h : ElemsAt cfg P C d) : Roomy cfg P := by
  intro w hw
  obtain ⟨J, hJ⟩ := h _ _ (.one w _ [] .null hw .null ws_nil) (fun _ => by simp [depthList, Json.depth])
  exact ⟨[0x6E, 0x75, 0x6C, 0x6C] ++ C, J, by simpa [List.append_assoc] using hJ⟩

theorem MembersAt.completable {P C : List UInt8} {d : Nat} (h : MembersAt cfg P C d) : Roomy cfg P := by
  intro w hw
  obtain ⟨J, hJ⟩ := h _ _ (.one w [] [] _ [] [] .null hw (by intro i hi; cases hi) ws_nil ws_nil .null ws_nil)
    (fun _ => by simp [depthMembers, Json.depth])
  exact ⟨strBytes [] ++ 0x3A :: ([0x6E, 0x75, 0x6C, 0x6C] ++ C), J, by simpa [List.append_assoc] using hJ⟩

theorem ElemsAt.hole {P C : List UInt8} {d : Nat} (h : ElemsAt cfg P C d) : HoleAt cfg P C d := by
  rintro t j ⟨w, b, w', hw, hb, hw', rfl⟩ hd
  exact h _ [j] (.one w b w' j hw hb hw') (fun hl => by simpa [depthList] using hd hl)

/-- an element and a comma -/
theorem ElemsAt.next {P C w b w' : List UInt8} {d : Nat} {j : Json} (h : ElemsAt cfg P C d) (hw : Ws w)
    (hb : GValue cfg.allowTrailingCommas b j) (hw' : Ws w') (hd : cfg.recursionLimit.isSome → j.depth ≤ d) :
    ElemsAt cfg (P ++ (w ++ b ++ (w' ++ [0x2C]))) C d := by
  intro r js hr hd'
  obtain ⟨J, hJ⟩ := h _ (j :: js) (.cons w b w' r j js hw hb hw' hr) (fun hl => by
    have := hd hl; have := hd' hl; simp only [depthList]; omega)
  exact ⟨J, by simpa [List.append_assoc] using hJ⟩

/-- an element -/
theorem ElemsAt.elem {P C w b : List UInt8} {d : Nat} {j : Json} (h : ElemsAt cfg P C d) (hw : Ws w)
    (hb : GValue cfg.allowTrailingCommas b j) (hd : cfg.recursionLimit.isSome → j.depth ≤ d) :
    Roomy cfg (P ++ (w ++ b)) := by
  intro w' hw'
  obtain ⟨J, hJ⟩ := h _ [j] (.one w b w' j hw hb hw') (fun hl => by simpa [depthList] using hd hl)
  exact ⟨C, J, by simpa [List.append_assoc] using hJ⟩

/-- a key -/
theorem MembersAt.key {P C w : List UInt8} {d : Nat} {k : List Item} (h : MembersAt cfg P C d) (hw : Ws w) (hk : ItemsValid k) :
    Roomy cfg (P ++ (w ++ strBytes k)) := by
  intro w1 hw1
  obtain ⟨J, hJ⟩ := h _ _ (.one w w1 [] _ [] k .null hw hk hw1 ws_nil .null ws_nil)
    (fun _ => by simp [depthMembers, Json.depth])
  refine ⟨0x3A :: ([0x6E, 0x75, 0x6C, 0x6C] ++ C), J, ?_⟩
  simpa [List.append_assoc] using hJ

/-- a key and a colon -/
theorem MembersAt.hole {P C w w1 : List UInt8} {d : Nat} {k : List Item} (h : MembersAt cfg P C d) (hw : Ws w) (hk : ItemsValid k)
    (hw1 : Ws w1) : HoleAt cfg (P ++ (w ++ strBytes k ++ (w1 ++ [0x3A]))) C d := by
  rintro t j ⟨w2, b, w', hw2, hb, hw', rfl⟩ hd
  obtain ⟨J, hJ⟩ := h _ [(k, j)] (.one w w1 w2 b w' k j hw hk hw1 hw2 hb hw') (fun hl => by simpa [depthMembers] using hd hl)
  exact ⟨J, by simpa [List.append_assoc] using hJ⟩

/-- a member -/
theorem MembersAt.member {P C w w1 w2 b : List UInt8} {d : Nat} {k : List Item} {j : Json} (h : MembersAt cfg P C d) (hw : Ws w)
    (hk : ItemsValid k) (hw1 : Ws w1) (hw2 : Ws w2) (hb : GValue cfg.allowTrailingCommas b j)
    (hd : cfg.recursionLimit.isSome → j.depth ≤ d) :
    Roomy cfg (P ++ (w ++ strBytes k ++ (w1 ++ [0x3A]) ++ (w2 ++ b))) := by
  intro w' hw'
  obtain ⟨J, hJ⟩ := h _ [(k, j)] (.one w w1 w2 b w' k j hw hk hw1 hw2 hb hw') (fun hl => by simpa [depthMembers] using hd hl)
  exact ⟨C, J, by simpa [List.append_assoc] using hJ⟩

/-- a member and a comma -/
theorem MembersAt.next {P C w w1 w2 b w' : List UInt8} {d : Nat} {k : List Item} {j : Json} (h : MembersAt cfg P C d) (hw : Ws w)
    (hk : ItemsValid k) (hw1 : Ws w1) (hw2 : Ws w2) (hb : GValue cfg.allowTrailingCommas b j) (hw' : Ws w')
    (hd : cfg.recursionLimit.isSome → j.depth ≤ d) :
    MembersAt cfg (P ++ (w ++ strBytes k ++ (w1 ++ [0x3A]) ++ (w2 ++ b) ++ (w' ++ [0x2C]))) C d := by
  intro r ms hr hd'
  obtain ⟨J, hJ⟩ := h _ ((k, j) :: ms) (.cons w w1 w2 b w' r k j ms hw hk hw1 hw2 hb hw' hr) (fun hl => by
    have := hd hl; have := hd' hl; simp only [depthMembers]; omega)
  exact ⟨J, by simpa [List.append_assoc] using hJ⟩

/-- an opened array -/
theorem HoleAt.elems {P C w : List UInt8} {d d' : Nat} (h : HoleAt cfg P C d) (hw : Ws w) (hd : cfg.recursionLimit.isSome → d = d' + 1) :
    ElemsAt cfg (P ++ (w ++ [0x5B])) (0x5D :: C) d' := by
  intro b js hb hd'
  obtain ⟨J, hJ⟩ := h _ (.arr js) ⟨w, _, [], hw, .arr b js hb, ws_nil, rfl⟩ (fun hl => by
    have := hd hl; have := hd' hl; simp only [Json.depth]; omega)
  exact ⟨J, by simpa [List.append_assoc] using hJ⟩

/-- an opened object -/
theorem HoleAt.members {P C w : List UInt8} {d d' : Nat} (h : HoleAt cfg P C d) (hw : Ws w) (hd : cfg.recursionLimit.isSome → d = d' + 1) :
    MembersAt cfg (P ++ (w ++ [0x7B])) (0x7D :: C) d' := by
  intro b ms hb hd'
  obtain ⟨J, hJ⟩ := h _ (.obj ms) ⟨w, _, [], hw, .obj b ms hb, ws_nil, rfl⟩ (fun hl => by
    have := hd hl; have := hd' hl; simp only [Json.depth]; omega)
  exact ⟨J, by simpa [List.append_assoc] using hJ⟩

/-! ## The tokenizer -/

/-- all errors are of kinds a tokenizer gives -/
def TokKinds {α : Type} (m : TokM α) : Prop := ∀ s e s', m s = .err e s' → e.kind.OfTokenizer

theorem TokKinds.bind {α β : Type} {m : TokM α} {f : α → TokM β} (h : TokKinds m) (hf : ∀ a, TokKinds (f a)) : TokKinds (m >>= f) := by
  intro s e s' he
  rcases bind_err_inv he with he | ⟨a, s1, _, he⟩
  · exact h _ _ _ he
  · exact hf _ _ _ _ he

theorem TokKinds.pure {α : Type} (a : α) : TokKinds (Pure.pure a : TokM α) := by intro s e s' he; cases he
theorem TokKinds.mpure {α : Type} (a : α) : TokKinds (M.pure a : TokM α) := by intro s e s' he; cases he
theorem TokKinds.get : TokKinds (M.get : TokM Nat) := by intro s e s' he; cases he
theorem TokKinds.modify (f : Nat → Nat) : TokKinds (M.modify f : TokM Unit) := by intro s e s' he; cases he
theorem TokKinds.panic {α : Type} (p : Panic) : TokKinds (M.panic p : TokM α) := by intro s e s' he; cases he
theorem TokKinds.err {α : Type} {o : Nat} {k : ErrorKind Empty} (h : k.OfTokenizer) : TokKinds (tokErr o k : TokM α) := by
  intro s e s' he; cases he; exact h
theorem TokKinds.orPanic {α : Type} (p : Panic) (o : Option α) : TokKinds (M.orPanic p o : TokM α) := by
  intro s e s' he; cases o <;> cases he
theorem TokKinds.ofRes {α : Type} (o : Res α) : TokKinds (M.ofRes o : TokM α) := by
  intro s e s' he; cases o <;> cases he
theorem TokKinds.ite {α : Type} {c : Prop} [Decidable c] {m m' : TokM α} (h : TokKinds m) (h' : TokKinds m') :
    TokKinds (if c then m else m') := by split <;> assumption
theorem TokKinds.peek : TokKinds (peekByte src) := by intro s e s' he; cases he
theorem TokKinds.nextByte : TokKinds (nextByte src) := by
  intro s e s' he
  unfold JustJson.nextByte at he
  split at he <;> cases he
theorem TokKinds.readOr {k : ErrorKind Empty} (h : k.OfTokenizer) : TokKinds (readOr src k) := by
  unfold JustJson.readOr
  refine TokKinds.nextByte.bind fun a => ?_
  cases a
  · exact TokKinds.get.bind fun _ => .err h
  · exact .pure _
theorem TokKinds.read : TokKinds (read src) := .readOr True.intro

theorem kinds_readHex : ∀ n acc, TokKinds (readHex src n acc)
  | 0, _ => .mpure _
  | n + 1, _ => by
    unfold readHex
    exact TokKinds.read.bind fun _ => .ite (.err True.intro) (kinds_readHex n _)

theorem kinds_readLow (cp : Nat) : TokKinds (readLowSurrogate src cp) := by
  unfold readLowSurrogate
  refine .ite ?_ (.pure _)
  refine TokKinds.read.bind fun _ => .ite ?_ (.pure _)
  refine TokKinds.read.bind fun _ => .ite ?_ (.pure _)
  refine (kinds_readHex _ _).bind fun _ => .ite ?_ (.pure _)
  exact (TokKinds.orPanic _ _).bind fun _ => .pure _

theorem kinds_escape (info : JsonStringInfo) : TokKinds (readStringEscape src info) := by
  unfold readStringEscape
  refine TokKinds.read.bind fun _ => .ite (.orPanic _ _) (.ite ?_ (.err True.intro))
  refine (kinds_readHex _ _).bind fun d => ?_
  cases charFromU32 d with
  | some c => exact .orPanic _ _
  | none =>
    refine (kinds_readLow _).bind fun o => ?_
    cases o with
    | some c => exact (TokKinds.ofRes _).bind fun _ => .orPanic _ _
    | none => exact .err True.intro

theorem kinds_stringLoop (start : Nat) : ∀ fuel info, TokKinds (readStringLoop src g start fuel info)
  | 0, _ => .panic _
  | fuel + 1, info => by
    unfold readStringLoop
    refine (TokKinds.readOr (k := .unclosedString) True.intro).bind fun b => ?_
    refine .ite ((TokKinds.orPanic _ _).bind fun _ => kinds_stringLoop start fuel _) ?_
    refine .ite ((TokKinds.orPanic _ _).bind fun _ => (TokKinds.orPanic _ _).bind fun _ => .pure _) ?_
    refine .ite ((kinds_escape _).bind fun _ => kinds_stringLoop start fuel _) ?_
    refine .ite ?_ (.ite (.err True.intro) (.panic _))
    refine (TokKinds.modify _).bind fun _ => TokKinds.get.bind fun _ => (TokKinds.orPanic _ _).bind fun _ =>
      (TokKinds.orPanic _ _).bind fun r => ?_
    cases utf8Decode r with
    | none => exact .err True.intro
    | some _ => exact kinds_stringLoop start fuel _

theorem kinds_digits {k : ErrorKind Empty} (h : k.OfTokenizer) : TokKinds (readDigits1 src k) := by
  unfold readDigits1
  exact TokKinds.get.bind fun _ => (TokKinds.modify _).bind fun _ => .ite (TokKinds.get.bind fun _ => .err h) (.pure _)

theorem kinds_number (st : InitialNumberState) (start : Nat) : TokKinds (readNumber src st start) := by
  unfold readNumber
  refine TokKinds.bind ?_ fun _ => TokKinds.bind ?_ fun _ => TokKinds.bind ?_ fun _ => TokKinds.get.bind fun _ =>
    (TokKinds.orPanic _ _).bind fun _ => (TokKinds.orPanic _ _).bind fun _ => .pure _
  · unfold readInt
    exact .ite (.mpure _) (TokKinds.get.bind fun _ => (TokKinds.modify _).bind fun _ => .ite (.pure _)
      (TokKinds.get.bind fun _ => .err True.intro))
  · unfold readFrac
    exact TokKinds.peek.bind fun _ => .ite (TokKinds.nextByte.bind fun _ => kinds_digits True.intro) (.pure _)
  · unfold readExp
    refine TokKinds.peek.bind fun _ => .ite (TokKinds.nextByte.bind fun _ => TokKinds.peek.bind fun _ => ?_) (.pure _)
    exact .ite (TokKinds.nextByte.bind fun _ => kinds_digits True.intro) (kinds_digits True.intro)

theorem kinds_literal : ∀ ls, TokKinds (readLiteral src ls)
  | [] => .mpure _
  | l :: ls => by
    unfold readLiteral
    exact (TokKinds.readOr (k := .unexpectedEof) True.intro).bind fun _ => .ite (.err True.intro) (kinds_literal ls)

theorem kinds_peek (o : Nat) (b : UInt8) : TokKinds (readPeek src g o b) := by
  unfold readPeek
  repeat' first
    | exact .mpure _
    | exact .err True.intro
    | exact .pure _
    | exact kinds_number _ _
    | exact kinds_literal _
    | exact kinds_stringLoop _ _ _
    | refine .ite ?_ ?_
    | refine .bind ?_ fun _ => ?_

theorem kinds_next {p : Nat} {e : Error Empty} (hi : Input g src) (hl : p ≤ src.length)
    (h : (Call.next.run src g p).1 = .error e) : e.kind.OfTokenizer := by
  cases tok_cases hi hl with
  | eof hw hn he hp => simp [Call.run, hn] at h
  | tok w b t l off' hw hd hb hv ha hs hlt hle hn he hp => simp [Call.run, hn] at h
  | err w b t e' off' hw hd hb hlt hle heo hrp hn he hp =>
    simp [Call.run, hn] at h
    subst h
    exact kinds_peek _ _ _ _ _ hrp

/-- what a failing `next_or_eof` makes of the error -/
theorem quit_next (hi : Input g src) {p off' : Nat} {e0 e : Error Empty} (hr : Reach g src p) (hl : p ≤ src.length)
    (hc : Roomy cfg (src.take p)) (h : nextOrEof src g p = .err e0 off') (ho : e.offset = e0.offset)
    (hk : e.kind = e0.kind ∨ e.kind = .expectedColon) : Quit g src cfg e := by
  refine ⟨p, hr, hl, hc, ?_⟩
  cases tok_cases hi hl with
  | eof hw hn he hp =>
    rw [he] at h
    cases h
    refine .ended (by simp [Call.run, hn]) ho ?_
    rcases hk with hk | hk
    · exact .inl hk
    · exact .inr (.inr (.inr hk))
  | tok w b t l off' hw hd hb hv ha hs hlt hle hn he hp => rw [he] at h; cases h
  | err w b t e off' hw hd hb hlt hle heo hrp hn he hp =>
    rw [he] at h
    cases h
    refine .lexical e0 (by simp [Call.run, hn]) ho ?_
    rcases hk with hk | hk
    · exact .inl hk
    · exact .inr (.inr hk)

theorem quit_token (hi : Input g src) {p off' : Nat} {t : Token} {e : Error Empty} {w : List UInt8} (hr : Reach g src p)
    (hl : p ≤ src.length) (hc : Roomy cfg (src.take p)) (h : nextOrEof src g p = .ok t off') (hb : Blames cfg e.kind t)
    (hw : Ws w) (hh : Here src p w) (ho : e.offset = p + w.length) : Quit g src cfg e := by
  refine ⟨p, hr, hl, hc, .token t w ?_ hb hw hh ho⟩
  cases tok_cases hi hl with
  | eof hw hn he hp => rw [he] at h; cases h
  | tok w b t l off' hw hd hb hv ha hs hlt hle hn he hp => rw [he] at h; cases h; simp [Call.run, hn]
  | err w b t e off' hw hd hb hlt hle heo hrp hn he hp => rw [he] at h; cases h

theorem Reach.next (hi : Input g src) {off off' : Nat} {t : Token} (hr : Reach g src off) (hl : off ≤ src.length)
    (h : nextOrEof src g off = .ok t off') : Reach g src off' := by
  obtain ⟨ts, hr⟩ := hr
  exact ⟨_, hr.append (yields_next hi hl h)⟩

theorem next_lexeme (hi : Input g src) {off off' : Nat} {t : Token} (hl : off ≤ src.length)
    (h : nextOrEof src g off = .ok t off') : ∃ w l, Ws w ∧ Lex.Valid l ∧ Adv src off (w ++ l.bytes) off' ∧ t = l.token := by
  cases tok_cases hi hl with
  | eof hw hn he hp => rw [he] at h; cases h
  | tok w b t l off' hw hd hb hv ha hs hlt hle hn he hp =>
    rw [he] at h
    cases h
    refine ⟨w, l, hw, hv, Adv.trans (b := off + w.length) ?_ ha, rfl⟩
    exact Adv.of_drop hd
  | err w b t e off' hw hd hb hlt hle heo hrp hn he hp => rw [he] at h; cases h

/-- whitespace before the token changes nothing -/
theorem next_ws {p off : Nat} {w : List UInt8} (hw : Ws w) (ha : Adv src p w off) (hl : p ≤ src.length) :
    nextOrEof src g off = nextOrEof src g p := by
  obtain ⟨w1, hw1, h | ⟨b, t, h, hb, ha1, hd⟩⟩ := ws_cases (ha.le hl)
  · rw [nextOrEof_eof hw1 h.1 (ha.le hl), nextOrEof_eof (w := w ++ w1) ?_ ?_ hl]
    · intro x hx
      rcases List.mem_append.mp hx with hx | hx
      · exact hw x hx
      · exact hw1 x hx
    · rw [ha.2, h.1]
  · have hww : Ws (w ++ w1) := by
      intro x hx
      rcases List.mem_append.mp hx with hx | hx
      · exact hw x hx
      · exact hw1 x hx
    have h2 : src.drop p = (w ++ w1) ++ b :: t := by rw [ha.2, h, List.append_assoc]
    unfold nextOrEof
    rw [M.bind_ok (readNonWs_cons hw1 h hb), M.bind_ok (readNonWs_cons hww h2 hb)]
    have : p + (w ++ w1).length = off + w1.length := by rw [ha.1, List.length_append]; omega
    rw [this]

theorem Quit.eofTo {e : Error Empty} {k : ErrorKind Empty} (hk : k = .unclosedObject ∨ k = .unclosedArray)
    (h : Quit g src cfg e) : Quit g src cfg (eofTo k e) := by
  by_cases he : e.kind = .unexpectedEof
  · have e1 : JustJson.eofTo k e = ⟨e.offset, k⟩ := by unfold JustJson.eofTo; rw [he]
    rw [e1]
    obtain ⟨p, h1, h2, h3, h4⟩ := h
    refine ⟨p, h1, h2, h3, ?_⟩
    cases h4 with
    | ended q1 q2 q3 => exact .ended q1 q2 (by rcases hk with rfl | rfl <;> simp)
    | lexical e' q1 q2 q3 =>
      refine .lexical e' q1 q2 ?_
      rw [he] at q3
      rcases q3 with q3 | ⟨_, q3⟩ | q3
      · exact .inr (.inl ⟨q3.symm, hk⟩)
      · rcases q3 with q3 | q3 <;> cases q3
      · cases q3
    | token t w q1 q2 => rw [he] at q2; exact q2.elim
    | root j _ _ _ q => rw [q] at he; cases he
    | trailing j w b _ _ _ _ q => rw [q] at he; cases he
  · have e1 : JustJson.eofTo k e = e := by
      obtain ⟨o, kk⟩ := e
      unfold JustJson.eofTo
      cases kk <;> first | rfl | exact absurd rfl he
    rw [e1]
    exact h

/-! ## The parser -/

theorem vv_tok {s : PState Unit} :
    PWp (liftTok valueParser (nextOrEof src g) s)
      (fun t s' => nextOrEof src g s.offset = .ok t s'.offset ∧ s'.remainingDepth = s.remainingDepth)
      (fun e _ => ∃ off', nextOrEof src g s.offset = .err e off') AnyPanic := by
  unfold liftTok
  cases hm : nextOrEof src g s.offset with
  | ok a off => exact ⟨rfl, rfl⟩
  | err e off => exact ⟨off, by rw [intoFallable_self]⟩
  | panic p => trivial

theorem vv_colon {s : PState Unit} :
    PWp (nextColon g src valueParser s)
      (fun t s' => nextOrEof src g s.offset = .ok t s'.offset ∧ s'.remainingDepth = s.remainingDepth)
      (fun e _ => ∃ e0 off', nextOrEof src g s.offset = .err e0 off' ∧ e = ⟨e0.offset, .expectedColon⟩) AnyPanic := by
  unfold nextColon
  cases hm : nextOrEof src g s.offset with
  | ok a off => exact ⟨rfl, rfl⟩
  | err e off => exact ⟨e, off, rfl, rfl⟩
  | panic p => trivial

theorem vv_peek {s : PState Unit} :
    PWp (liftTok valueParser (tokPeek src) s)
      (fun k s' => s'.offset = s.offset + runLen isWs (src.drop s.offset)
        ∧ k = (src.drop (s.offset + runLen isWs (src.drop s.offset))).head?.map peekKind ∧ s'.remainingDepth = s.remainingDepth)
      (fun _ _ => False) AnyPanic := by
  unfold liftTok
  rw [tokPeek_eq]
  exact ⟨rfl, rfl, rfl⟩

/-- the outcome -/
def QuitOut {α : Type} (g : Bool) (src : List UInt8) (cfg : ParseConfig) (out : Out (PState Unit) (Error Empty) α) : Prop :=
  PWp out (fun _ s' => Reach g src s'.offset) (fun e _ => Quit g src cfg e) AnyPanic

/-- where the parser stands, whitespace having been skipped -/
def Stand (g : Bool) (src : List UInt8) (cfg : ParseConfig) (s : PState Unit) (C : List UInt8) : Prop :=
  ∃ p w, Reach g src p ∧ p ≤ src.length ∧ Ws w ∧ Adv src p w s.offset ∧ HoleAt cfg (src.take p) C s.remainingDepth

theorem run_quit (hi : Input g src) : ∀ fuel : Nat,
    (∀ (s : PState Unit) (C : List UInt8), s.offset ≤ src.length → Fit g src s.offset → Stand g src cfg s C →
      QuitOut g src cfg (readTokens g src cfg valueParser fuel s))
    ∧ (∀ (s : PState Unit) (C : List UInt8), s.offset ≤ src.length → Fit g src s.offset → Reach g src s.offset →
      MembersAt cfg (src.take s.offset) C s.remainingDepth →
      QuitOut g src cfg (readObject g src cfg valueParser fuel s))
    ∧ (∀ (s : PState Unit) (o : Object) (C : List UInt8), s.offset ≤ src.length → Fit g src s.offset → Reach g src s.offset →
      MembersAt cfg (src.take s.offset) C s.remainingDepth →
      QuitOut g src cfg (readObjectLoop g src cfg valueParser fuel o s))
    ∧ (∀ (s : PState Unit) (C : List UInt8), s.offset ≤ src.length → Fit g src s.offset → Reach g src s.offset →
      ElemsAt cfg (src.take s.offset) C s.remainingDepth →
      QuitOut g src cfg (readArray g src cfg valueParser fuel s))
    ∧ (∀ (s : PState Unit) (a : List Value) (C : List UInt8), s.offset ≤ src.length → Fit g src s.offset → Reach g src s.offset →
      ElemsAt cfg (src.take s.offset) C s.remainingDepth →
      QuitOut g src cfg (readArrayLoop g src cfg valueParser fuel a s)) := by
  have hlim := hi.lim
  have fitNext : ∀ {off off' : Nat} {t : Token}, off ≤ src.length → Fit g src off → nextOrEof src g off = .ok t off' → Fit g src off' := by
    intro off off' t hl hf h
    obtain ⟨_, _, _, _, _, _, _, _, _, hf'⟩ := (wp_next hl hlim hf).elim_ok h
    exact hf'
  intro fuel
  induction fuel with
  | zero =>
    refine ⟨?_, ?_, ?_, ?_, ?_⟩ <;> (intros; exact True.intro)
  | succ fuel ih =>
    obtain ⟨ihT, ihO, ihOL, ihA, ihAL⟩ := ih
    refine ⟨?_, ?_, ?_, ?_, ?_⟩
    · rintro s C hl hf ⟨p, w, hr, hpl, hw, ha, hole⟩
      have hc := hole.completable
      have hnx : nextOrEof src g s.offset = nextOrEof src g p := next_ws hw ha hpl
      have hh : Here src p w := ⟨_, ha.2.symm⟩
      rw [readTokens]
      refine pwp_offset ?_
      refine PWp.bindE vv_tok ?_ ?_
      · rintro e s1 ⟨off', h⟩
        rw [hnx] at h
        exact quit_next hi hr hpl hc h rfl (.inl rfl)
      rintro tok s1 ⟨h1, e1⟩
      have h1p := h1
      rw [hnx] at h1p
      have hl1 := next_le hi hl h1
      have hf1 := fitNext hl hf h1
      have hr1 := hr.next hi hpl h1p
      have bad : ∀ {k : ErrorKind Empty}, Blames cfg k tok → Quit g src cfg ⟨s.offset, k⟩ :=
        fun hb => quit_token hi hr hpl hc h1p hb hw hh ha.1
      obtain ⟨w1, l, hw1, hv, ha1, rfl⟩ := next_lexeme hi hpl h1p
      have tk := take_of_adv ha1
      cases l with
      | null => exact hr1
      | bool b => exact hr1
      | num n => exact hr1
      | str is => exact hr1
      | objC => exact bad (.inl ⟨rfl, rfl⟩)
      | arrC => exact bad (.inr (.inl ⟨rfl, rfl⟩))
      | colon => exact bad (.inr (.inr (.inl ⟨rfl, rfl⟩)))
      | comma => exact bad (.inr (.inr (.inr ⟨rfl, rfl⟩)))
      | objO =>
        show QuitOut g src cfg ((beginNest cfg valueParser s.offset >>= fun _ => M.mapErr (eofTo .unclosedObject)
          (readObject g src cfg valueParser fuel)) s1)
        rw [M.bind_eq]
        unfold beginNest
        by_cases hlm : cfg.recursionLimit.isSome = true
        · rw [if_pos hlm]
          by_cases hrd : s1.remainingDepth > 0
          · rw [if_pos hrd]
            refine PWp.mapErr (Q := fun e _ => Quit g src cfg e) ?_ (fun e _ h => h.eofTo (.inl rfl))
            refine ihO { s1 with remainingDepth := s1.remainingDepth - 1 } (0x7D :: C) hl1 hf1 hr1 ?_
            show MembersAt cfg (src.take s1.offset) _ (s1.remainingDepth - 1)
            rw [tk]
            exact hole.members hw1 (fun _ => by omega)
          · rw [if_neg hrd]
            exact bad ⟨.inl rfl, hlm⟩
        · rw [if_neg hlm]
          refine PWp.mapErr (Q := fun e _ => Quit g src cfg e) ?_ (fun e _ h => h.eofTo (.inl rfl))
          refine ihO s1 (0x7D :: C) hl1 hf1 hr1 ?_
          rw [tk]
          exact hole.members hw1 (fun h => absurd h hlm)
      | arrO =>
        show QuitOut g src cfg ((beginNest cfg valueParser s.offset >>= fun _ => M.mapErr (eofTo .unclosedArray)
          (readArray g src cfg valueParser fuel)) s1)
        rw [M.bind_eq]
        unfold beginNest
        by_cases hlm : cfg.recursionLimit.isSome = true
        · rw [if_pos hlm]
          by_cases hrd : s1.remainingDepth > 0
          · rw [if_pos hrd]
            refine PWp.mapErr (Q := fun e _ => Quit g src cfg e) ?_ (fun e _ h => h.eofTo (.inr rfl))
            refine ihA { s1 with remainingDepth := s1.remainingDepth - 1 } (0x5D :: C) hl1 hf1 hr1 ?_
            show ElemsAt cfg (src.take s1.offset) _ (s1.remainingDepth - 1)
            rw [tk]
            exact hole.elems hw1 (fun _ => by omega)
          · rw [if_neg hrd]
            exact bad ⟨.inr rfl, hlm⟩
        · rw [if_neg hlm]
          refine PWp.mapErr (Q := fun e _ => Quit g src cfg e) ?_ (fun e _ h => h.eofTo (.inr rfl))
          refine ihA s1 (0x5D :: C) hl1 hf1 hr1 ?_
          rw [tk]
          exact hole.elems hw1 (fun h => absurd h hlm)
    · intro s C hl hf hr hm
      rw [readObject]
      refine pwp_offset ?_
      refine PWp.bind (P := fun a s' => s = s' ∧ a = ([] : Object)) ⟨rfl, rfl⟩ ?_
      rintro _ _ ⟨rfl, rfl⟩
      refine PWp.bind (ihOL s [] C hl hf hr hm) ?_
      intro o s2 hr2
      refine pwp_offset ?_
      refine PWp.bind (P := fun a s' => s2 = s' ∧ a = Value.object o) ⟨rfl, rfl⟩ ?_
      rintro _ _ ⟨rfl, rfl⟩
      rw [M.bind_eq]
      unfold endNest
      by_cases hlm : cfg.recursionLimit.isSome = true
      · rw [if_pos hlm]; exact hr2
      · rw [if_neg hlm]; exact hr2
    · intro s o C hl hf hr hm
      have hc := hm.completable
      have hh : Here src s.offset [] := ⟨_, rfl⟩
      rw [readObjectLoop.eq_def]
      refine pwp_offset ?_
      refine PWp.bindE vv_tok ?_ ?_
      · rintro e s1 ⟨off', h⟩
        exact quit_next hi hr hl hc h rfl (.inl rfl)
      rintro tok s1 ⟨h1, e1⟩
      have hl1 := next_le hi hl h1
      have hf1 := fitNext hl hf h1
      have hr1 := hr.next hi hl h1
      have bad : ∀ {k : ErrorKind Empty}, Blames cfg k tok → Quit g src cfg ⟨s.offset, k⟩ :=
        fun hb => quit_token hi hr hl hc h1 hb ws_nil hh rfl
      obtain ⟨w, l, hw, hv, ha, rfl⟩ := next_lexeme hi hl h1
      have tk := take_of_adv ha
      cases l with
      | null => exact bad ⟨True.intro, by intro s h; cases h⟩
      | bool b => exact bad ⟨True.intro, by intro s h; cases h⟩
      | num n => exact bad ⟨True.intro, by intro s h; cases h⟩
      | arrO => exact bad ⟨True.intro, by intro s h; cases h⟩
      | objO => exact bad ⟨True.intro, by intro s h; cases h⟩
      | arrC => exact bad (.inl rfl)
      | colon => exact bad (.inr (.inl rfl))
      | comma => exact bad (.inr (.inr rfl))
      | objC =>
        simp only [Lex.token]
        by_cases htc : cfg.allowTrailingCommas = true
        · rw [if_pos htc]; exact hr1
        · rw [if_neg htc]
          refine PWp.bind (P := fun a s' => s1 = s' ∧ a = o.isEmpty) ⟨rfl, rfl⟩ ?_
          rintro _ _ ⟨rfl, rfl⟩
          split
          · exact hr1
          · exact bad ⟨True.intro, by simpa using htc⟩
      | str k =>
        simp only [Lex.token]
        refine PWp.bind (P := fun a s' => s1 = s' ∧ a = (o, canonStr k)) ⟨rfl, rfl⟩ ?_
        rintro _ _ ⟨rfl, rfl⟩
        have hkc : Roomy cfg (src.take s1.offset) := by rw [tk]; exact hm.key hw hv
        refine pwp_offset ?_
        refine PWp.bindE vv_colon ?_ ?_
        · rintro e s2 ⟨e0, off', h, rfl⟩
          exact quit_next hi hr1 hl1 hkc h rfl (.inr rfl)
        rintro tok s2 ⟨h2, e2⟩
        have hl2 := next_le hi hl1 h2
        have hf2 := fitNext hl1 hf1 h2
        have hr2 := hr1.next hi hl1 h2
        split
        · rename_i hne
          exact quit_token (e := ⟨_, _⟩) hi hr1 hl1 hkc h2 (show Blames cfg .expectedColon _ from hne) ws_nil ⟨_, rfl⟩ rfl
        rename_i hc2
        have hc2 := Classical.not_not.mp hc2
        obtain ⟨w1, l2, hw1, hv2, ha2, rfl⟩ := next_lexeme hi hl1 h2
        have hc2 := Lex.token_eq_colon hc2
        subst hc2
        have ha12 := ha.trans ha2
        have tk2 := take_of_adv ha12
        have hole : HoleAt cfg (src.take s2.offset) C s2.remainingDepth := by
          rw [tk2, e2, e1]
          exact hm.hole hw hv hw1
        refine pwp_offset ?_
        refine PWp.bind (pwp_and (ihT s2 C hl2 hf2 ⟨s2.offset, [], hr2, hl2, ws_nil, Adv.refl _, hole⟩)
          ((vp_sound hlim fuel).1 s2 hl2 hf2)) ?_
        rintro v s3 ⟨hr3, w2, b, j, hw2, hb, ha3, rfl, hrd, hdep, hl3, hf3⟩
        refine PWp.bind (P := fun a s' => s3 = s' ∧ a = o ++ [(canonStr k, ofJson j)]) ⟨rfl, rfl⟩ ?_
        rintro _ _ ⟨rfl, rfl⟩
        have hdep' : cfg.recursionLimit.isSome → j.depth ≤ s.remainingDepth := fun h => by have := hdep h; omega
        have ha13 := ha12.trans ha3
        have hc3 : Roomy cfg (src.take s3.offset) := by
          rw [take_of_adv ha13]
          exact hm.member hw hv hw1 hw2 hb hdep'
        refine pwp_offset ?_
        refine PWp.bindE vv_tok ?_ ?_
        · rintro e s4 ⟨off', h⟩
          exact quit_next hi hr3 hl3 hc3 h rfl (.inl rfl)
        rintro tok s4 ⟨h4, e4⟩
        have hl4 := next_le hi hl3 h4
        have hf4 := fitNext hl3 hf3 h4
        have hr4 := hr3.next hi hl3 h4
        split
        · exact hr4
        rename_i hne
        split
        · rename_i hne2
          exact quit_token (e := ⟨_, _⟩) hi hr3 hl3 hc3 h4 (show Blames cfg .expectedCommaOrEndOfObject _ from ⟨hne2, hne⟩) ws_nil ⟨_, rfl⟩ rfl
        rename_i hcm
        have hcm := Classical.not_not.mp hcm
        obtain ⟨w', l4, hw', hv4, ha4, rfl⟩ := next_lexeme hi hl3 h4
        have hcm := Lex.token_eq_comma hcm
        subst hcm
        refine ihOL s4 _ C hl4 hf4 hr4 ?_
        rw [take_of_adv (ha13.trans ha4), show s4.remainingDepth = s.remainingDepth by omega]
        exact hm.next hw hv hw1 hw2 hb hw' hdep'
    · intro s C hl hf hr hm
      rw [readArray]
      refine pwp_offset ?_
      refine PWp.bind (P := fun a s' => s = s' ∧ a = ([] : List Value)) ⟨rfl, rfl⟩ ?_
      rintro _ _ ⟨rfl, rfl⟩
      refine PWp.bind (ihAL s [] C hl hf hr hm) ?_
      intro o s2 hr2
      refine PWp.bind (P := fun a s' => s2 = s' ∧ a = Value.array o) ⟨rfl, rfl⟩ ?_
      rintro _ _ ⟨rfl, rfl⟩
      rw [M.bind_eq]
      unfold endNest
      by_cases hlm : cfg.recursionLimit.isSome = true
      · rw [if_pos hlm]; exact hr2
      · rw [if_neg hlm]; exact hr2
    · intro s a C hl hf hr hm
      have hc := hm.completable
      rw [readArrayLoop.eq_def]
      refine pwp_offset ?_
      refine PWp.bindE vv_peek (fun e s1 h => h.elim) ?_
      rintro k s1 ⟨q1, hk, q2⟩
      obtain ⟨w, hw, ha, hle, hrr⟩ := ws_split (src := src) hl
      rw [← q1] at ha hle
      split
      · rename_i hk'
        rw [hk] at hk'
        have hd : ∃ r, src.drop s.offset = w ++ (Lex.arrC.bytes ++ r) := by
          cases h : src.drop (s.offset + runLen isWs (src.drop s.offset)) with
          | nil => rw [h] at hk'; simp at hk'
          | cons b t =>
            rw [h] at hk'
            simp at hk'
            refine ⟨t, ?_⟩
            rw [ha.2, q1, h, peekKind_arrayEnd hk']
            rfl
        obtain ⟨r, hd⟩ := hd
        have hn := nextOrEof_complete (g := g) hw (l := .arrC) True.intro hd True.intro hlim
        have hoff : s.offset + w.length + Lex.arrC.bytes.length = s1.offset + 1 := by
          have := ha.1
          show s.offset + w.length + 1 = _
          omega
        rw [hoff] at hn
        have hr1 := hr.next hi hl hn
        rw [M.bind_ok (M.modify_eq _ _)]
        split
        · exact hr1
        · rename_i htc
          refine PWp.bind (P := fun b s' => { s1 with offset := s1.offset + 1 } = s' ∧ b = a.isEmpty) ⟨rfl, rfl⟩ ?_
          rintro _ _ ⟨rfl, rfl⟩
          split
          · exact hr1
          · exact quit_token (e := ⟨_, _⟩) hi hr hl hc hn (show Blames cfg .illegalTrailingComma _ from ⟨True.intro, by simpa using htc⟩)
              ws_nil ⟨_, rfl⟩ rfl
      · have hf1 : Fit g src s1.offset := by
          intro hg
          exact (hf hg).ws hw ha
        refine PWp.bind (pwp_and (ihT s1 C hle hf1 ⟨s.offset, w, hr, hl, hw, ha, by rw [q2]; exact hm.hole⟩)
          ((vp_sound hlim fuel).1 s1 hle hf1)) ?_
        rintro v s3 ⟨hr3, w2, b, j, hw2, hb, ha3, rfl, hrd, hdep, hl3, hf3⟩
        refine pwp_offset ?_
        refine PWp.bind (P := fun x s' => s3 = s' ∧ x = a ++ [ofJson j]) ⟨rfl, rfl⟩ ?_
        rintro _ _ ⟨rfl, rfl⟩
        have hdep' : cfg.recursionLimit.isSome → j.depth ≤ s.remainingDepth := fun h => by have := hdep h; omega
        have ha13 := ha.trans ha3
        rw [← List.append_assoc] at ha13
        have hww : Ws (w ++ w2) := by
          intro x hx
          rcases List.mem_append.mp hx with hx | hx
          · exact hw x hx
          · exact hw2 x hx
        have hc3 : Roomy cfg (src.take s3.offset) := by
          rw [take_of_adv ha13]
          exact hm.elem hww hb hdep'
        refine pwp_offset ?_
        refine PWp.bindE vv_tok ?_ ?_
        · rintro e s4 ⟨off', h⟩
          exact quit_next hi hr3 hl3 hc3 h rfl (.inl rfl)
        rintro tok s4 ⟨h4, e4⟩
        have hl4 := next_le hi hl3 h4
        have hf4 := fitNext hl3 hf3 h4
        have hr4 := hr3.next hi hl3 h4
        split
        · exact hr4
        rename_i hne
        split
        · rename_i hne2
          exact quit_token (e := ⟨_, _⟩) hi hr3 hl3 hc3 h4 (show Blames cfg .expectedCommaOrEndOfArray _ from ⟨hne2, hne⟩) ws_nil ⟨_, rfl⟩ rfl
        rename_i hcm
        have hcm := Classical.not_not.mp hcm
        obtain ⟨w', l4, hw', hv4, ha4, rfl⟩ := next_lexeme hi hl3 h4
        have hcm := Lex.token_eq_comma hcm
        subst hcm
        refine ihAL s4 _ C hl4 hf4 hr4 ?_
        rw [take_of_adv (ha13.trans ha4), show s4.remainingDepth = s.remainingDepth by omega]
        exact hm.next hww hb hw' hdep'

/-- The whole run. -/
theorem parse_quit (hi : Input g src) {e : Error Empty} (he : Value.parseWithConfig g src cfg = .err e) : Quit g src cfg e := by
  have hlim := hi.lim
  have top : HoleAt cfg (src.take 0) [] (cfg.recursionLimit.getD USIZE_MAX) := by
    intro t j ht hd
    refine ⟨j, by simpa using ht, ?_, .inl rfl⟩
    intro n hn
    have hn : cfg.recursionLimit = some n := hn
    have := hd (by rw [hn]; rfl)
    rw [hn] at this
    exact this
  have r0 : Reach g src 0 := ⟨[], rfl⟩
  have key := pwp_and ((run_quit (g := g) (cfg := cfg) hi (parseFuel src)).1 ⟨0, (), cfg.recursionLimit.getD USIZE_MAX⟩ []
    (Nat.zero_le _) hi.fit ⟨0, [], r0, Nat.zero_le _, ws_nil, Adv.refl _, top⟩)
    ((vp_sound (g := g) (cfg := cfg) hlim (parseFuel src)).1 ⟨0, (), cfg.recursionLimit.getD USIZE_MAX⟩ (Nat.zero_le _) hi.fit)
  have all : PWp (parseBytes g src cfg valueParser ()) (fun _ _ => True) (fun e _ => Quit g src cfg e) AnyPanic := by
    unfold parseBytes parseM
    refine PWp.bind key ?_
    rintro v s ⟨hr, w, b, j, hw, hb, ha, rfl, hrd, hdep, hl, hf⟩
    have tk : src.take s.offset = w ++ b := by
      have := take_of_adv ha
      simpa using this
    have txt : Text cfg.allowTrailingCommas (src.take s.offset) j := ⟨w, b, [], hw, hb, ws_nil, by rw [tk]; simp⟩
    have dok : DepthOk cfg j := by
      intro n hn
      have := hdep (by rw [hn]; rfl)
      simpa [hn] using this
    have hc : Roomy cfg (src.take s.offset) := fun w' hw' =>
      ⟨[], j, ⟨w, b, w', hw, hb, hw', by rw [tk, List.append_nil]⟩, dok, .inl rfl⟩
    have fin : ∀ rej : Bool, (rej = false → RootOk cfg j) →
        (rej = true → cfg.allowAllTypesAtRoot = false ∧ ¬ j.IsContainer) →
        PWp ((if rej = true then perr valueParser 0 ErrorKind.payloadsShouldBeObjectOrArray
        else do
          let r ← liftTok valueParser (nextNonWs src)
          match r with
            | none => pure (ofJson j)
            | some (offset, _) => perr valueParser offset ErrorKind.trailingNonWhitespace : PM valueParser Value) s)
        (fun _ _ => True) (fun e _ => Quit g src cfg e) AnyPanic := by
      intro rej h0 h1
      cases rej with
      | true => exact ⟨s.offset, hr, hl, hc, .root j txt (h1 rfl).1 (h1 rfl).2 rfl⟩
      | false =>
        rw [if_neg (by simp), M.bind_eq]
        unfold liftTok
        obtain ⟨w', hw', h | ⟨x, t, h, hx, ha', hd⟩⟩ := ws_cases hl
        · rw [nextNonWs_nil hw' h.1 hl]
          exact True.intro
        · rw [nextNonWs_cons hw' h hx]
          refine ⟨s.offset, hr, hl, hc, .trailing j w' x ⟨txt, dok, h0 rfl⟩ hw' ?_ ?_ rfl⟩
          · intro hwx
            have := hwx x (by simp)
            rcases this with rfl | rfl | rfl | rfl <;> simp [isWs] at hx
          · exact ⟨t, by rw [h]; simp⟩
    by_cases har : cfg.allowAllTypesAtRoot = true
    · rw [if_pos har]
      exact fin false (fun _ => .inl har) (fun h => by cases h)
    · rw [if_neg har]
      refine fin (!((ofJson j).kind == .object || (ofJson j).kind == .array)) ?_ ?_
      · intro h
        right
        cases j <;> first | exact True.intro | cases h
      · intro h
        refine ⟨by simpa using har, ?_⟩
        cases j <;> first | (intro h; exact h) | cases h
  unfold Value.parseWithConfig at he
  cases hp : parseBytes g src cfg valueParser () with
  | ok v s => rw [hp] at he; cases he
  | err e' s =>
    rw [hp] at he all
    cases he
    exact all
  | panic p => rw [hp] at he; cases he

end
end JustJson
