import Verif.Lemmas.Agree
/-! # Soundness of `Value` parsing: what is accepted is a text of the grammar -/

namespace JustJson
open Spec

set_option linter.unusedSectionVars false

section
variable {src : List UInt8} [Arch] {g : Bool} {cfg : ParseConfig}

mutual
/-- The `Value` built for a tree. -/
def ofJson : Json → Value
  | .null => .null
  | .bool b => .boolean b
  | .num n => .number (canonNum n)
  | .str s => .string (canonStr s)
  | .arr js => .array (ofJsons js)
  | .obj ms => .object (ofMembers ms)
/-- of elements -/
def ofJsons : List Json → List Value
  | [] => []
  | j :: js => ofJson j :: ofJsons js
/-- of members -/
def ofMembers : List (List Item × Json) → Object
  | [] => []
  | (k, j) :: ms => (canonStr k, ofJson j) :: ofMembers ms
end

/-- no claim about errors -/
abbrev AnyErr {ε σ : Type} : ε → σ → Prop := fun _ _ => True
/-- no claim about panics -/
abbrev AnyPanic : Panic → Prop := fun _ => True

theorem PWp.perr {D : Delegate} {α : Type} {off : Nat} {k : ErrorKind D.Err} {s : PState D.σ} {P : α → PState D.σ → Prop}
    {N : Panic → Prop} : PWp (JustJson.perr D off k s : Out _ _ α) P AnyErr N := True.intro

theorem pwp_tok {D : Delegate} {α : Type} {lo : Nat} {m : TokM α} {P : α → Nat → Prop} {s : PState D.σ}
    {N : Panic → Prop}
    (h : Wp src lo (m s.offset) P) :
    PWp (liftTok D m s) (fun a s' => ∃ off, P a off ∧ s' = { s with offset := off }) AnyErr N := by
  unfold liftTok
  cases hm : m s.offset with
  | ok a off => rw [hm] at h; exact ⟨off, h, rfl⟩
  | err e off => exact True.intro
  | panic p => rw [hm] at h; exact h.elim

theorem pwp_colon {D : Delegate} {s : PState D.σ} {N : Panic → Prop} {P : Token → Nat → Prop}
    (h : Wp src s.offset (nextOrEof src g s.offset) P) :
    PWp (nextColon g src D s) (fun a s' => ∃ off, P a off ∧ s' = { s with offset := off }) AnyErr N := by
  unfold nextColon
  cases hm : nextOrEof src g s.offset with
  | ok a off => rw [hm] at h; exact ⟨off, h, rfl⟩
  | err e off => exact True.intro
  | panic p => rw [hm] at h; exact h.elim

theorem vp_liftD {α : Type} {off : Nat} {a : α} {s : PState Unit} :
    liftD valueParser off (M.pure a) s = .ok a s := rfl

theorem PWp.any {σ ε α : Type} {m : M σ ε α} {f : ε → ε} {s : σ} {P : α → σ → Prop} {N : Panic → Prop}
    (h : PWp (m s) P AnyErr N) : PWp (M.mapErr f m s) P AnyErr N := h.mapErr (fun _ _ h => h)

theorem Lex.token_eq_objC {l : Lex} (h : l.token = .objectEnd) : l = .objC := by cases l <;> simp_all [Lex.token]
theorem Lex.token_eq_arrC {l : Lex} (h : l.token = .arrayEnd) : l = .arrC := by cases l <;> simp_all [Lex.token]
theorem Lex.token_eq_comma {l : Lex} (h : l.token = .comma) : l = .comma := by cases l <;> simp_all [Lex.token]
theorem Lex.token_eq_colon {l : Lex} (h : l.token = .colon) : l = .colon := by cases l <;> simp_all [Lex.token]

/-- Result of reading a value. -/
def ValPost (g : Bool) (src : List UInt8) (cfg : ParseConfig) (s : PState Unit) (v : Value) (s' : PState Unit) : Prop :=
  ∃ w b j, Ws w ∧ GValue cfg.allowTrailingCommas b j ∧ Adv src s.offset (w ++ b) s'.offset ∧ v = ofJson j
    ∧ s'.remainingDepth = s.remainingDepth ∧ (cfg.recursionLimit.isSome → j.depth ≤ s.remainingDepth)
    ∧ s'.offset ≤ src.length ∧ Fit g src s'.offset

/-- Result of reading a container after its opening byte `c`. -/
def ContPost (g : Bool) (src : List UInt8) (cfg : ParseConfig) (c : UInt8) (s : PState Unit) (v : Value)
    (s' : PState Unit) : Prop :=
  ∃ b j, GValue cfg.allowTrailingCommas (c :: b) j ∧ Adv src s.offset b s'.offset ∧ v = ofJson j
    ∧ s'.remainingDepth = s.remainingDepth + (if cfg.recursionLimit.isSome then 1 else 0)
    ∧ (cfg.recursionLimit.isSome → j.depth ≤ s.remainingDepth + 1)
    ∧ s'.offset ≤ src.length ∧ Fit g src s'.offset

/-- Result of the object loop. -/
def ObjPost (g : Bool) (src : List UInt8) (cfg : ParseConfig) (o : Object) (s : PState Unit) (o' : Object)
    (s' : PState Unit) : Prop :=
  ((∃ w, Ws w ∧ Adv src s.offset (w ++ [0x7D]) s'.offset ∧ o' = o ∧ (o = [] ∨ cfg.allowTrailingCommas = true))
   ∨ ∃ b ms, GMembers cfg.allowTrailingCommas b ms ∧ Adv src s.offset (b ++ [0x7D]) s'.offset
      ∧ o' = o ++ ofMembers ms ∧ (cfg.recursionLimit.isSome → depthMembers ms ≤ s.remainingDepth))
  ∧ s'.remainingDepth = s.remainingDepth ∧ s'.offset ≤ src.length ∧ Fit g src s'.offset

/-- Result of the array loop. -/
def ArrPost (g : Bool) (src : List UInt8) (cfg : ParseConfig) (o : List Value) (s : PState Unit) (o' : List Value)
    (s' : PState Unit) : Prop :=
  ((∃ w, Ws w ∧ Adv src s.offset (w ++ [0x5D]) s'.offset ∧ o' = o ∧ (o = [] ∨ cfg.allowTrailingCommas = true))
   ∨ ∃ b js, GElems cfg.allowTrailingCommas b js ∧ Adv src s.offset (b ++ [0x5D]) s'.offset
      ∧ o' = o ++ ofJsons js ∧ (cfg.recursionLimit.isSome → depthList js ≤ s.remainingDepth))
  ∧ s'.remainingDepth = s.remainingDepth ∧ s'.offset ≤ src.length ∧ Fit g src s'.offset

theorem pwp_offset {D : Delegate} {α : Type} {f : Nat → PM D α} {s : PState D.σ} {P : α → PState D.σ → Prop}
    {Q : Error D.Err → PState D.σ → Prop} {N : Panic → Prop}
    (h : PWp (f s.offset s) P Q N) : PWp ((tokOffset D >>= f) s) P Q N := h

theorem pwp_modify {σ ε α : Type} {t : σ → σ} {f : Unit → M σ ε α} {s : σ} {P : α → σ → Prop}
    {Q : ε → σ → Prop} {N : Panic → Prop}
    (h : PWp (f () (t s)) P Q N) : PWp ((M.modify t >>= f) s) P Q N := h

theorem ws_nil : Ws [] := by intro b hb; simp at hb

theorem vp_sound (hlim : src.length < LIM) : ∀ fuel : Nat,
    (∀ s : PState Unit, s.offset ≤ src.length → Fit g src s.offset →
      PWp (readTokens g src cfg valueParser fuel s) (ValPost g src cfg s) AnyErr AnyPanic)
    ∧ (∀ s : PState Unit, s.offset ≤ src.length → Fit g src s.offset →
      PWp (readObject g src cfg valueParser fuel s) (ContPost g src cfg 0x7B s) AnyErr AnyPanic)
    ∧ (∀ (s : PState Unit) (o : Object), s.offset ≤ src.length → Fit g src s.offset →
      PWp (readObjectLoop g src cfg valueParser fuel o s) (ObjPost g src cfg o s) AnyErr AnyPanic)
    ∧ (∀ s : PState Unit, s.offset ≤ src.length → Fit g src s.offset →
      PWp (readArray g src cfg valueParser fuel s) (ContPost g src cfg 0x5B s) AnyErr AnyPanic)
    ∧ (∀ (s : PState Unit) (a : List Value), s.offset ≤ src.length → Fit g src s.offset →
      PWp (readArrayLoop g src cfg valueParser fuel a s) (ArrPost g src cfg a s) AnyErr AnyPanic) := by
  intro fuel
  induction fuel with
  | zero =>
    refine ⟨?_, ?_, ?_, ?_, ?_⟩ <;> (intros; exact True.intro)
  | succ fuel ih =>
    obtain ⟨ihT, ihO, ihOL, ihA, ihAL⟩ := ih
    refine ⟨?_, ?_, ?_, ?_, ?_⟩
    · intro s hl hf
      rw [readTokens]
      refine pwp_offset ?_
      refine PWp.bind (pwp_tok (wp_next hl hlim hf)) ?_
      rintro tok s1 ⟨off, ⟨w, l, hw, hv, ha, rfl, hs, h1, h2, h3⟩, rfl⟩
      have nest : ∀ (c : UInt8) (m : PM valueParser Value) (k : ErrorKind Empty), l.bytes = [c] →
          (∀ s : PState Unit, s.offset ≤ src.length → Fit g src s.offset →
            PWp (m s) (ContPost g src cfg c s) AnyErr AnyPanic) →
          PWp ((beginNest cfg valueParser s.offset >>= fun _ => M.mapErr (eofTo k) m)
            { s with offset := off }) (ValPost g src cfg s) AnyErr AnyPanic := by
        intro c m k hc hm
        rw [M.bind_eq]
        unfold beginNest
        rw [hc] at ha
        by_cases hlm : cfg.recursionLimit.isSome = true
        · rw [if_pos hlm]
          by_cases hrd : s.remainingDepth > 0
          · rw [if_pos (show PState.remainingDepth _ > 0 from hrd)]
            refine PWp.any (PWp.mono (hm _ h2 h3) ?_ (fun _ _ h => h) (fun _ h => h))
            rintro v s' ⟨b, j, q1, q2, q3, q4, q5, q6, q7⟩
            rw [if_pos hlm] at q4
            refine ⟨w, c :: b, j, hw, q1, ?_, q3, ?_, ?_, q6, q7⟩
            · have := ha.trans q2
              simpa using this
            · have : s'.remainingDepth = (s.remainingDepth - 1) + 1 := q4
              omega
            · intro h
              have : j.depth ≤ (s.remainingDepth - 1) + 1 := q5 h
              omega
          · rw [if_neg (show ¬ PState.remainingDepth _ > 0 from hrd)]
            exact True.intro
        · rw [if_neg hlm]
          refine PWp.any (PWp.mono (hm _ h2 h3) ?_ (fun _ _ h => h) (fun _ h => h))
          rintro v s' ⟨b, j, q1, q2, q3, q4, q5, q6, q7⟩
          rw [if_neg hlm] at q4
          refine ⟨w, c :: b, j, hw, q1, ?_, q3, q4, ?_, q6, q7⟩
          · have := ha.trans q2
            simpa using this
          · intro h; exact absurd h hlm
      cases l with
      | null => exact ⟨w, _, .null, hw, .null, ha, rfl, rfl, fun _ => Nat.zero_le _, h2, h3⟩
      | bool b =>
        cases b
        · exact ⟨w, _, _, hw, .false, ha, rfl, rfl, fun _ => Nat.zero_le _, h2, h3⟩
        · exact ⟨w, _, _, hw, .true, ha, rfl, rfl, fun _ => Nat.zero_le _, h2, h3⟩
      | num n => exact ⟨w, _, _, hw, .num n hv, ha, rfl, rfl, fun _ => Nat.zero_le _, h2, h3⟩
      | str is => exact ⟨w, _, _, hw, .str is hv, ha, rfl, rfl, fun _ => Nat.zero_le _, h2, h3⟩
      | objC => exact True.intro
      | arrC => exact True.intro
      | comma => exact True.intro
      | colon => exact True.intro
      | objO => exact nest _ _ _ rfl ihO
      | arrO => exact nest _ _ _ rfl ihA
    · intro s hl hf
      rw [readObject]
      refine pwp_offset ?_
      refine PWp.bind (P := fun a s' => s = s' ∧ a = ([] : Object)) ⟨rfl, rfl⟩ ?_
      rintro _ _ ⟨rfl, rfl⟩
      refine PWp.bind (ihOL s [] hl hf) ?_
      rintro o s2 ⟨hp, e1, e2, e3⟩
      refine pwp_offset ?_
      refine PWp.bind (P := fun a s' => s2 = s' ∧ a = Value.object o) ⟨rfl, rfl⟩ ?_
      rintro _ _ ⟨rfl, rfl⟩
      have fin : ∀ (b : List UInt8) (j : Json), GValue cfg.allowTrailingCommas (0x7B :: b) j →
          Adv src s.offset b s2.offset → Value.object o = ofJson j →
          (cfg.recursionLimit.isSome → j.depth ≤ s.remainingDepth + 1) →
          PWp ((endNest cfg valueParser >>= fun _ => (Pure.pure (Value.object o) : PM valueParser Value)) s2)
            (ContPost g src cfg 0x7B s) AnyErr AnyPanic := by
        intro b j q1 q2 q3 q4
        rw [M.bind_eq]
        unfold endNest
        by_cases hlm : cfg.recursionLimit.isSome = true
        · rw [if_pos hlm]
          exact ⟨b, j, q1, q2, q3, by rw [if_pos hlm, ← e1], q4, e2, e3⟩
        · rw [if_neg hlm]
          exact ⟨b, j, q1, q2, q3, by rw [if_neg hlm, ← e1]; rfl, q4, e2, e3⟩
      rcases hp with ⟨w, hw, ha, rfl, _⟩ | ⟨b, ms, hm, ha, rfl, hd⟩
      · exact fin _ (.obj []) (.emptyObj w hw) ha rfl (fun _ => by simp [Json.depth, depthMembers])
      · exact fin _ (.obj ms) (.obj b ms hm) ha rfl (fun h => by have := hd h; simp [Json.depth]; omega)
    · intro s o hl hf
      rw [readObjectLoop.eq_def]
      refine pwp_offset ?_
      refine PWp.bind (pwp_tok (wp_next hl hlim hf)) ?_
      rintro tok s1 ⟨off, ⟨w, l, hw, hv, ha, rfl, hs, h1, h2, h3⟩, rfl⟩
      cases l with
      | null => exact True.intro
      | bool b => exact True.intro
      | num n => exact True.intro
      | arrC => exact True.intro
      | comma => exact True.intro
      | colon => exact True.intro
      | objO => exact True.intro
      | arrO => exact True.intro
      | objC =>
        simp only [Lex.token]
        by_cases htc : cfg.allowTrailingCommas = true
        · rw [if_pos htc]
          exact ⟨.inl ⟨w, hw, ha, rfl, .inr htc⟩, rfl, h2, h3⟩
        · rw [if_neg htc]
          refine PWp.bind (P := fun a s' => { s with offset := off } = s' ∧ a = o.isEmpty) ⟨rfl, rfl⟩ ?_
          rintro _ _ ⟨rfl, rfl⟩
          split
          · rename_i he
            exact ⟨.inl ⟨w, hw, ha, rfl, .inl (by simpa using he)⟩, rfl, h2, h3⟩
          · exact True.intro
      | str k =>
        simp only [Lex.token]
        refine PWp.bind (P := fun a s' => { s with offset := off } = s' ∧ a = (o, canonStr k)) ⟨rfl, rfl⟩ ?_
        rintro _ _ ⟨rfl, rfl⟩
        refine pwp_offset ?_
        refine PWp.bind (pwp_colon (wp_next (g := g) (off := off) h2 hlim h3)) ?_
        rintro tok s1 ⟨off2, ⟨w1, l, hw1, hv1, ha1, rfl, hs1, p1, p2, p3⟩, rfl⟩
        split
        · exact True.intro
        · rename_i hc
          have hc := Lex.token_eq_colon (Classical.not_not.mp hc)
          subst hc
          refine pwp_offset ?_
          refine PWp.bind (ihT _ p2 p3) ?_
          rintro v s4 ⟨w2, b, j, hw2, hj, ha2, rfl, hrd, hdep, q1, q2⟩
          refine PWp.bind (P := fun a s' => s4 = s' ∧ a = o ++ [(canonStr k, ofJson j)]) ⟨rfl, rfl⟩ ?_
          rintro _ _ ⟨rfl, rfl⟩
          refine pwp_offset ?_
          refine PWp.bind (pwp_tok (wp_next q1 hlim q2)) ?_
          rintro tok s1 ⟨off3, ⟨w', l', hw', hv', ha', rfl, hs', r1, r2, r3⟩, rfl⟩
          have hrd' : s4.remainingDepth = s.remainingDepth := hrd
          split
          · rename_i he
            have he := Lex.token_eq_objC he
            subst he
            refine ⟨.inr ⟨_, [(k, j)], .one w w1 w2 b w' k j hw hv hw1 hw2 hj hw', ?_, rfl, ?_⟩, hrd, r2, r3⟩
            · have := (ha.trans (ha1.trans (ha2.trans ha')))
              simpa [Lex.bytes] using this
            · intro h
              simpa [depthMembers] using hdep h
          split
          · exact True.intro
          · rename_i hcm
            have hcm := Lex.token_eq_comma (Classical.not_not.mp hcm)
            subst hcm
            refine PWp.mono (ihOL _ _ r2 r3) ?_ (fun _ _ h => h) (fun _ h => h)
            rintro o' s' ⟨hp, e1, e2, e3⟩
            refine ⟨.inr ?_, e1.trans hrd, e2, e3⟩
            have hall := (ha.trans (ha1.trans (ha2.trans ha')))
            rcases hp with ⟨w'', hw'', ha'', rfl, hne⟩ | ⟨b', ms, hm, ha'', rfl, hd⟩
            · have htc : cfg.allowTrailingCommas = true := by
                rcases hne with hne | hne
                · simp at hne
                · exact hne
              refine ⟨_, [(k, j)], .trailing w w1 w2 b w' w'' k j htc hw hv hw1 hw2 hj hw' hw'', ?_, rfl, ?_⟩
              · have := hall.trans ha''
                simpa [Lex.bytes] using this
              · intro h
                simpa [depthMembers] using hdep h
            · refine ⟨_, (k, j) :: ms, .cons w w1 w2 b w' b' k j ms hw hv hw1 hw2 hj hw' hm, ?_, ?_, ?_⟩
              · have := hall.trans ha''
                simpa [Lex.bytes] using this
              · simp [ofMembers]
              · intro h
                have hd1 : j.depth ≤ s.remainingDepth := hdep h
                have hd2 : depthMembers ms ≤ s4.remainingDepth := hd h
                simp only [depthMembers]
                omega
    · intro s hl hf
      rw [readArray]
      refine pwp_offset ?_
      refine PWp.bind (P := fun a s' => s = s' ∧ a = ([] : List Value)) ⟨rfl, rfl⟩ ?_
      rintro _ _ ⟨rfl, rfl⟩
      refine PWp.bind (ihAL s [] hl hf) ?_
      rintro o s2 ⟨hp, e1, e2, e3⟩
      refine PWp.bind (P := fun a s' => s2 = s' ∧ a = Value.array o) ⟨rfl, rfl⟩ ?_
      rintro _ _ ⟨rfl, rfl⟩
      have fin : ∀ (b : List UInt8) (j : Json), GValue cfg.allowTrailingCommas (0x5B :: b) j →
          Adv src s.offset b s2.offset → Value.array o = ofJson j →
          (cfg.recursionLimit.isSome → j.depth ≤ s.remainingDepth + 1) →
          PWp ((endNest cfg valueParser >>= fun _ => (Pure.pure (Value.array o) : PM valueParser Value)) s2)
            (ContPost g src cfg 0x5B s) AnyErr AnyPanic := by
        intro b j q1 q2 q3 q4
        rw [M.bind_eq]
        unfold endNest
        by_cases hlm : cfg.recursionLimit.isSome = true
        · rw [if_pos hlm]
          exact ⟨b, j, q1, q2, q3, by rw [if_pos hlm, ← e1], q4, e2, e3⟩
        · rw [if_neg hlm]
          exact ⟨b, j, q1, q2, q3, by rw [if_neg hlm, ← e1]; rfl, q4, e2, e3⟩
      rcases hp with ⟨w, hw, ha, rfl, _⟩ | ⟨b, ms, hm, ha, rfl, hd⟩
      · exact fin _ (.arr []) (.emptyArr w hw) ha rfl (fun _ => by simp [Json.depth, depthList])
      · exact fin _ (.arr ms) (.arr b ms hm) ha rfl (fun h => by have := hd h; simp [Json.depth]; omega)
    · intro s o hl hf
      rw [readArrayLoop.eq_def]
      refine pwp_offset ?_
      refine PWp.bind (pwp_tok (wp_peek hl hf)) ?_
      rintro kd s1 ⟨off, ⟨w, hw, ha, h1, h2, h3, h4, h5⟩, rfl⟩
      split
      · rename_i hk
        have ha1 := h4 hk
        have hl1 := ha1.le h1
        have hf1 : Fit g src (off + 1) := fun hg => (h2 hg).adv_ascii ha1 (by decide)
        refine pwp_modify ?_
        split
        · rename_i htc
          exact ⟨.inl ⟨w, hw, ha.trans ha1, rfl, .inr htc⟩, rfl, hl1, hf1⟩
        · refine PWp.bind (P := fun a s' => { s with offset := off + 1 } = s' ∧ a = o.isEmpty) ⟨rfl, rfl⟩ ?_
          rintro _ _ ⟨rfl, rfl⟩
          split
          · rename_i he
            exact ⟨.inl ⟨w, hw, ha.trans ha1, rfl, .inl (by simpa using he)⟩, rfl, hl1, hf1⟩
          · exact True.intro
      · refine PWp.bind (ihT _ h1 h2) ?_
        rintro v s4 ⟨w2, b, j, hw2, hj, ha2, rfl, hrd, hdep, q1, q2⟩
        refine pwp_offset ?_
        refine PWp.bind (P := fun a s' => s4 = s' ∧ a = o ++ [ofJson j]) ⟨rfl, rfl⟩ ?_
        rintro _ _ ⟨rfl, rfl⟩
        refine pwp_offset ?_
        refine PWp.bind (pwp_tok (wp_next q1 hlim q2)) ?_
        rintro tok s1 ⟨off3, ⟨w', l', hw', hv', ha', rfl, hs', r1, r2, r3⟩, rfl⟩
        have hrd' : s4.remainingDepth = s.remainingDepth := hrd
        have hww : Ws (w ++ w2) := by
          intro b hb
          rcases List.mem_append.mp hb with hb | hb
          · exact hw b hb
          · exact hw2 b hb
        have hall := (ha.trans (ha2.trans ha'))
        split
        · rename_i he
          have he := Lex.token_eq_arrC he
          subst he
          refine ⟨.inr ⟨_, [j], .one (w ++ w2) b w' j hww hj hw', ?_, rfl, ?_⟩, hrd, r2, r3⟩
          · simpa [Lex.bytes] using hall
          · intro h
            simpa [depthList] using hdep h
        split
        · exact True.intro
        · rename_i hcm
          have hcm := Lex.token_eq_comma (Classical.not_not.mp hcm)
          subst hcm
          refine PWp.mono (ihAL _ _ r2 r3) ?_ (fun _ _ h => h) (fun _ h => h)
          rintro o' s' ⟨hp, e1, e2, e3⟩
          refine ⟨.inr ?_, e1.trans hrd, e2, e3⟩
          rcases hp with ⟨w'', hw'', ha'', rfl, hne⟩ | ⟨b', ms, hm, ha'', rfl, hd⟩
          · have htc : cfg.allowTrailingCommas = true := by
              rcases hne with hne | hne
              · simp at hne
              · exact hne
            refine ⟨_, [j], .trailing (w ++ w2) b w' w'' j htc hww hj hw' hw'', ?_, rfl, ?_⟩
            · have := hall.trans ha''
              simpa [Lex.bytes] using this
            · intro h
              simpa [depthList] using hdep h
          · refine ⟨_, j :: ms, .cons (w ++ w2) b w' b' j ms hww hj hw' hm, ?_, ?_, ?_⟩
            · have := hall.trans ha''
              simpa [Lex.bytes] using this
            · simp [ofJsons]
            · intro h
              have hd1 : j.depth ≤ s.remainingDepth := hdep h
              have hd2 : depthList ms ≤ s4.remainingDepth := hd h
              simp only [depthList]
              omega

end
end JustJson
