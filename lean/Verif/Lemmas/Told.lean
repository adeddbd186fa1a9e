import Verif.Props.Lexemes
import Verif.Lemmas.Log
/-! # What is told is what the tokenizer yields -/

namespace JustJson
open Spec

set_option linter.unusedSectionVars false

section
variable {src : List UInt8} [Arch] {g : Bool} {cfg : ParseConfig} {D : Delegate}

theorem told_append (a b : List Event) : told (a ++ b) = told a ++ told b := List.filterMap_append
theorem notes_append (a b : List Token) : notes (a ++ b) = notes a ++ notes b := List.filter_append ..

/-- the tokenizer has yielded `ts` up to `off`, and `owed` is still to be told -/
def Told (g : Bool) (src : List UInt8) (owed : List Token) (off : Nat) (l : List Event) : Prop :=
  ∃ ts, TokYields src g 0 ts off ∧ told l ++ owed = notes ts

/-- the same, with whitespace possibly skipped -/
def ToldWs (g : Bool) (src : List UInt8) (off : Nat) (l : List Event) : Prop :=
  ∃ ts off0, TokYields src g 0 ts off0 ∧ told l = notes ts
    ∧ ∀ t off', nextOrEof src g off = .ok t off' → TokYields src g off0 [t] off'

/-- what has been told is a beginning of what the tokenizer yields -/
def Behind (g : Bool) (src : List UInt8) (l : List Event) : Prop :=
  ∃ ts off, TokYields src g 0 ts off ∧ told l <+: notes ts

theorem Told.behind {owed : List Token} {off : Nat} {l : List Event} (h : Told g src owed off l) : Behind g src l := by
  obtain ⟨ts, h1, h2⟩ := h
  exact ⟨ts, off, h1, ⟨owed, h2⟩⟩

theorem Told.behind_ev {t : Token} {ev : Event} {off : Nat} {l : List Event} (h : Told g src [t] off l)
    (he : ev.token? = some t) : Behind g src (l ++ [ev]) := by
  obtain ⟨ts, h1, h2⟩ := h
  refine ⟨ts, off, h1, ?_⟩
  rw [told_append, ← h2]
  simp [told, he]

theorem Told.cb {t : Token} {ev : Event} {off : Nat} {l : List Event} (h : Told g src [t] off l)
    (he : ev.token? = some t) : Told g src [] off (l ++ [ev]) := by
  obtain ⟨ts, h1, h2⟩ := h
  refine ⟨ts, h1, ?_⟩
  rw [told_append, ← h2]
  simp [told, he]

theorem Told.cb_none {ev : Event} {off : Nat} {l : List Event} (h : Told g src [] off l)
    (he : ev.token? = none) : Told g src [] off (l ++ [ev]) := by
  obtain ⟨ts, h1, h2⟩ := h
  refine ⟨ts, h1, ?_⟩
  rw [told_append, ← h2]
  simp [told, he]

theorem yields_next (hi : Input g src) {off off' : Nat} {t : Token} (hl : off ≤ src.length)
    (h : nextOrEof src g off = .ok t off') : TokYields src g off [t] off' := by
  refine TokYields.one ?_
  cases tok_cases hi hl with
  | eof hw hn he hp => rw [he] at h; cases h
  | tok w b t l off' hw hd hb hv ha hs hlt hle hn he hp => rw [he] at h; cases h; simp [Call.run, hn]
  | err w b t e off' hw hd hb hlt hle heo hrp hn he hp => rw [he] at h; cases h

theorem Told.ws (hi : Input g src) {off : Nat} {l : List Event} (hl : off ≤ src.length) (h : Told g src [] off l) :
    ToldWs g src off l := by
  obtain ⟨ts, h1, h2⟩ := h
  rw [List.append_nil] at h2
  exact ⟨ts, off, h1, h2, fun t off' ht => yields_next hi hl ht⟩

theorem ToldWs.tok {off off' : Nat} {l : List Event} {t : Token} (h : ToldWs g src off l)
    (ht : nextOrEof src g off = .ok t off') : Told g src (notes [t]) off' l := by
  obtain ⟨ts, off0, h1, h2, h3⟩ := h
  refine ⟨ts ++ [t], h1.append (h3 t off' ht), ?_⟩
  rw [notes_append, h2]

theorem ToldWs.behind {off : Nat} {l : List Event} (h : ToldWs g src off l) : Behind g src l := by
  obtain ⟨ts, off0, h1, h2, _⟩ := h
  exact ⟨ts, off0, h1, by rw [h2]; exact List.prefix_refl _⟩

/-- skipping whitespace changes nothing for the next token -/
theorem Told.peek (hi : Input g src) {off : Nat} {l : List Event} (hl : off ≤ src.length) (h : Told g src [] off l) :
    ToldWs g src (off + runLen isWs (src.drop off)) l := by
  obtain ⟨ts, h1, h2⟩ := h
  rw [List.append_nil] at h2
  refine ⟨ts, off, h1, h2, fun t off' ht => yields_next hi hl ?_⟩
  have idem : runLen isWs (src.drop (off + runLen isWs (src.drop off))) = 0 := by
    obtain ⟨w, hw, ha, hle, hr⟩ := ws_split (src := src) hl
    cases hd : src.drop (off + runLen isWs (src.drop off)) with
    | nil => rfl
    | cons b t =>
      have := hr b (by rw [hd]; rfl)
      simp [runLen, this]
  have hsk : skipWs src (off + runLen isWs (src.drop off)) = .ok () (off + runLen isWs (src.drop off)) := by
    rw [skipWs_eq, idem]; rfl
  have : nextOrEof src g (off + runLen isWs (src.drop off)) = nextOrEof src g off := by
    unfold nextOrEof readNonWs
    rw [M.bind_eq, M.bind_ok hsk, M.bind_eq _ _ off, M.bind_ok (skipWs_eq off)]
  rw [← this]
  exact ht

/-! ## Triples -/

theorem tw_tok {s : PState (logged D).σ} :
    PWp (liftTok (logged D) (nextOrEof src g) s)
      (fun t s' => nextOrEof src g s.offset = .ok t s'.offset ∧ s'.delegate.2 = s.delegate.2)
      (fun _ s' => s'.delegate.2 = s.delegate.2) AnyPanic := by
  unfold liftTok
  cases hm : nextOrEof src g s.offset with
  | ok a off => exact ⟨rfl, rfl⟩
  | err e off => exact rfl
  | panic p => trivial

theorem tw_colon {s : PState (logged D).σ} :
    PWp (nextColon g src (logged D) s)
      (fun t s' => nextOrEof src g s.offset = .ok t s'.offset ∧ s'.delegate.2 = s.delegate.2)
      (fun _ s' => s'.delegate.2 = s.delegate.2) AnyPanic := by
  unfold nextColon
  cases hm : nextOrEof src g s.offset with
  | ok a off => exact ⟨rfl, rfl⟩
  | err e off => exact rfl
  | panic p => trivial

theorem tw_peek {s : PState (logged D).σ} :
    PWp (liftTok (logged D) (tokPeek src) s)
      (fun k s' => s'.offset = s.offset + runLen isWs (src.drop s.offset)
        ∧ k = (src.drop (s.offset + runLen isWs (src.drop s.offset))).head?.map peekKind ∧ s'.delegate.2 = s.delegate.2)
      (fun _ s' => s'.delegate.2 = s.delegate.2) AnyPanic := by
  unfold liftTok
  rw [tokPeek_eq]
  exact ⟨rfl, rfl, rfl⟩

theorem next_le (hi : Input g src) {off off' : Nat} {t : Token} (hl : off ≤ src.length)
    (h : nextOrEof src g off = .ok t off') : off' ≤ src.length := by
  cases tok_cases hi hl with
  | eof hw hn he hp => rw [he] at h; cases h
  | tok w b t l off' hw hd hb hv ha hs hlt hle hn he hp => rw [he] at h; cases h; exact hle
  | err w b t e off' hw hd hb hlt hle heo hrp hn he hp => rw [he] at h; cases h

/-- the outcome of reading: all told, or behind -/
def ToldOut {α : Type} (owed : List Token) (g : Bool) (src : List UInt8) (out : Out (PState (logged D).σ) (Error D.Err) α) : Prop :=
  PWp out (fun _ s' => s'.offset ≤ src.length ∧ Told g src owed s'.offset s'.delegate.2) (fun _ s' => Behind g src s'.delegate.2) AnyPanic

theorem run_told (hi : Input g src) : ∀ fuel : Nat,
    (∀ s : PState (logged D).σ, s.offset ≤ src.length → ToldWs g src s.offset s.delegate.2 →
      ToldOut [] g src (readTokens g src cfg (logged D) fuel s))
    ∧ (∀ s : PState (logged D).σ, s.offset ≤ src.length → Told g src [.object] s.offset s.delegate.2 →
      ToldOut [] g src (readObject g src cfg (logged D) fuel s))
    ∧ (∀ (s : PState (logged D).σ) (o : D.Object), s.offset ≤ src.length → Told g src [] s.offset s.delegate.2 →
      ToldOut [.objectEnd] g src (readObjectLoop g src cfg (logged D) fuel o s))
    ∧ (∀ s : PState (logged D).σ, s.offset ≤ src.length → Told g src [.array] s.offset s.delegate.2 →
      ToldOut [] g src (readArray g src cfg (logged D) fuel s))
    ∧ (∀ (s : PState (logged D).σ) (a : D.Array), s.offset ≤ src.length → Told g src [] s.offset s.delegate.2 →
      ToldOut [.arrayEnd] g src (readArrayLoop g src cfg (logged D) fuel a s)) := by
  intro fuel
  induction fuel with
  | zero =>
    refine ⟨?_, ?_, ?_, ?_, ?_⟩
    · intro s _ _; rw [readTokens]; trivial
    · intro s _ _; rw [readObject]; trivial
    · intro s o _ _; rw [readObjectLoop]; trivial
    · intro s _ _; rw [readArray]; trivial
    · intro s o _ _; rw [readArrayLoop]; trivial
  | succ fuel ih =>
    obtain ⟨ihT, ihO, ihOL, ihA, ihAL⟩ := ih
    have same : ∀ {s s' : PState (logged D).σ}, s'.delegate.2 = s.delegate.2 → Behind g src s.delegate.2 → Behind g src s'.delegate.2 :=
      fun e h => by rw [e]; exact h
    -- a callback that reports the token owed
    have report : ∀ {α : Type} {off : Nat} {ev : Event} {t : Token} {m : M D.σ D.Err α} {s : PState (logged D).σ},
        ev.token? = some t → s.offset ≤ src.length → Told g src [t] s.offset s.delegate.2 →
        ToldOut [] g src (liftD (logged D) off (listed ev m) s) := by
      intro α off ev t m s he hl ht
      refine (lw_cb).mono ?_ ?_ (fun _ h => h)
      · rintro _ s1 ⟨e1, e2, _⟩
        rw [e1, e2]
        exact ⟨hl, ht.cb he⟩
      · intro _ s1 e
        rw [e]
        exact ht.behind_ev he
    have silent : ∀ {α : Type} {off : Nat} {ev : Event} {m : M D.σ D.Err α} {s : PState (logged D).σ},
        ev.token? = none → s.offset ≤ src.length → Told g src [] s.offset s.delegate.2 →
        ToldOut [] g src (liftD (logged D) off (listed ev m) s) := by
      intro α off ev m s he hl ht
      refine (lw_cb).mono ?_ ?_ (fun _ h => h)
      · rintro _ s1 ⟨e1, e2, _⟩
        rw [e1, e2]
        exact ⟨hl, ht.cb_none he⟩
      · intro _ s1 e
        rw [e]
        exact (ht.cb_none he).behind
    refine ⟨?_, ?_, ?_, ?_, ?_⟩
    · intro s hl ht
      rw [readTokens]
      refine pwp_offset (D := logged D) ?_
      refine PWp.bindE tw_tok (fun e s1 h => same h ht.behind) ?_
      rintro tok s1 ⟨h1, e1⟩
      have hl1 := next_le hi hl h1
      have ht1 := ht.tok h1
      rw [← e1] at ht1
      cases tok with
      | null => exact report rfl hl1 ht1
      | bool b => exact report rfl hl1 ht1
      | number n => exact report rfl hl1 ht1
      | string s => exact report rfl hl1 ht1
      | object =>
        refine PWp.bindE lw_begin (fun e s2 h => same h ht1.behind) ?_
        rintro _ s2 ⟨q1, q2, _⟩
        refine PWp.mapErr ?_ (fun e s h => h)
        exact ihO s2 (by omega) (by rw [q1, q2]; exact ht1)
      | array =>
        refine PWp.bindE lw_begin (fun e s2 h => same h ht1.behind) ?_
        rintro _ s2 ⟨q1, q2, _⟩
        refine PWp.mapErr ?_ (fun e s h => h)
        exact ihA s2 (by omega) (by rw [q1, q2]; exact ht1)
      | _ => exact ht1.behind
    · intro s hl ht
      rw [readObject]
      refine pwp_offset (D := logged D) ?_
      refine PWp.bind (report rfl hl ht) ?_
      rintro o s1 ⟨hl1, ht1⟩
      refine PWp.bind (ihOL s1 o hl1 ht1) ?_
      rintro o s2 ⟨hl2, ht2⟩
      refine pwp_offset (D := logged D) ?_
      refine PWp.bind (report rfl hl2 ht2) ?_
      rintro v s3 ⟨hl3, ht3⟩
      refine PWp.bind lw_end ?_
      rintro _ s4 ⟨u1, u2, _⟩
      refine ⟨by omega, ?_⟩
      rw [u1, u2]
      exact ht3
    · intro s o hl ht
      rw [readObjectLoop]
      refine pwp_offset (D := logged D) ?_
      refine PWp.bindE tw_tok (fun e s1 h => same h ht.behind) ?_
      rintro tok s1 ⟨h1, e1⟩
      have hl1 := next_le hi hl h1
      have ht1 := (ht.ws hi hl).tok h1
      rw [← e1] at ht1
      cases tok with
      | objectEnd =>
        simp only []
        split
        · exact ⟨hl1, ht1⟩
        · refine PWp.bind (lw_q (q := fun x => D.objectIsEmpty x o)) ?_
          rintro b _ rfl
          split
          · exact ⟨hl1, ht1⟩
          · exact ht1.behind
      | string k =>
        refine PWp.bind (report rfl hl1 ht1) ?_
        rintro ⟨o1, kD⟩ s2 ⟨hl2, ht2⟩
        refine pwp_offset (D := logged D) ?_
        refine PWp.bindE tw_colon (fun e s3 h => same h ht2.behind) ?_
        rintro tok s3 ⟨h3, e3⟩
        have hl3 := next_le hi hl2 h3
        have ht3 := (ht2.ws hi hl2).tok h3
        rw [← e3] at ht3
        split
        · exact ht3.behind
        rename_i hc
        have hc : tok = .colon := Decidable.not_not.mp hc
        subst hc
        refine pwp_offset (D := logged D) ?_
        refine PWp.bind (ihT s3 hl3 (Told.ws hi hl3 ht3)) ?_
        rintro v s4 ⟨hl4, ht4⟩
        refine PWp.bind (silent rfl hl4 ht4) ?_
        rintro o s5 ⟨hl5, ht5⟩
        refine pwp_offset (D := logged D) ?_
        refine PWp.bindE tw_tok (fun e s6 h => same h ht5.behind) ?_
        rintro tok s6 ⟨h6, e6⟩
        have hl6 := next_le hi hl5 h6
        have ht6 := (ht5.ws hi hl5).tok h6
        rw [← e6] at ht6
        split
        · rename_i hk
          subst hk
          exact ⟨hl6, ht6⟩
        split
        · exact ht6.behind
        rename_i hc
        have hc : tok = .comma := Decidable.not_not.mp hc
        subst hc
        exact ihOL s6 o hl6 ht6
      | _ => exact ht1.behind
    · intro s hl ht
      rw [readArray]
      refine pwp_offset (D := logged D) ?_
      refine PWp.bind (report rfl hl ht) ?_
      rintro o s1 ⟨hl1, ht1⟩
      refine PWp.bind (ihAL s1 o hl1 ht1) ?_
      rintro o s2 ⟨hl2, ht2⟩
      refine PWp.bind (report rfl hl2 ht2) ?_
      rintro v s3 ⟨hl3, ht3⟩
      refine PWp.bind lw_end ?_
      rintro _ s4 ⟨u1, u2, _⟩
      refine ⟨by omega, ?_⟩
      rw [u1, u2]
      exact ht3
    · intro s a hl ht
      rw [readArrayLoop]
      refine pwp_offset (D := logged D) ?_
      refine PWp.bindE tw_peek (fun e s1 h => same h ht.behind) ?_
      rintro k s1 ⟨q1, hk, q2⟩
      obtain ⟨w, hw, ha, hle, hr⟩ := ws_split (src := src) hl
      split
      · rename_i hk'
        rw [hk] at hk'
        have hd : ∃ r, src.drop s.offset = w ++ (Lex.arrC.bytes ++ r) := by
          cases h : src.drop (s.offset + runLen isWs (src.drop s.offset)) with
          | nil => rw [h] at hk'; simp at hk'
          | cons b t =>
            rw [h] at hk'
            simp at hk'
            refine ⟨t, ?_⟩
            rw [ha.2, h, peekKind_arrayEnd hk']
            rfl
        obtain ⟨r, hd⟩ := hd
        have y := TokYields.lex (l := .arrC) hi hw True.intro hd True.intro
        have hoff : s.offset + w.length + Lex.arrC.bytes.length = s1.offset + 1 := by
          rw [q1]
          have := ha.1
          show s.offset + w.length + 1 = _
          omega
        rw [hoff] at y
        have ht1 : Told g src [.arrayEnd] (s1.offset + 1) s1.delegate.2 := by
          obtain ⟨ts, y0, h0⟩ := ht
          refine ⟨ts ++ [.arrayEnd], y0.append y, ?_⟩
          rw [q2, notes_append, ← h0, List.append_nil]
          rfl
        have hl1 : s1.offset + 1 ≤ src.length := by
          have := congrArg List.length hd
          rw [List.length_drop] at this
          simp only [List.length_append] at this
          omega
        rw [M.bind_ok (M.modify_eq _ _)]
        split
        · exact ⟨hl1, ht1⟩
        · refine PWp.bind (lw_q (q := fun x => D.arrayIsEmpty x a)) ?_
          rintro b _ rfl
          split
          · exact ⟨hl1, ht1⟩
          · exact ht1.behind
      · have hl1 : s1.offset ≤ src.length := by rw [q1]; exact hle
        have ht1 : ToldWs g src s1.offset s1.delegate.2 := by
          rw [q1, q2]
          exact ht.peek hi hl
        refine PWp.bind (ihT s1 hl1 ht1) ?_
        rintro v s4 ⟨hl4, ht4⟩
        refine pwp_offset (D := logged D) ?_
        refine PWp.bind (silent rfl hl4 ht4) ?_
        rintro o s5 ⟨hl5, ht5⟩
        refine pwp_offset (D := logged D) ?_
        refine PWp.bindE tw_tok (fun e s6 h => same h ht5.behind) ?_
        rintro tok s6 ⟨h6, e6⟩
        have hl6 := next_le hi hl5 h6
        have ht6 := (ht5.ws hi hl5).tok h6
        rw [← e6] at ht6
        split
        · rename_i hk
          subst hk
          exact ⟨hl6, ht6⟩
        split
        · exact ht6.behind
        rename_i hc
        have hc : tok = .comma := Decidable.not_not.mp hc
        subst hc
        exact ihAL s6 o hl6 ht6

/-- tokens, then the end -/
theorem TokYields.end {ts : List Token} : ∀ {off off' : Nat}, TokYields src g off ts off' →
    (Call.next.run src g off').1 = .none →
    (history src g (List.replicate (ts.length + 1) .next) off).1.map Prod.snd = ts.map .token ++ [.none] := by
  induction ts with
  | nil =>
    intro off off' y hn
    injection y with _ y
    change off = off' at y
    subst y
    simp [history, hn]
  | cons t ts ih =>
    intro off off' y hn
    unfold TokYields at y
    simp only [List.length_cons, List.replicate_succ, history, List.map_cons, Prod.mk.injEq, List.cons.injEq] at y
    obtain ⟨⟨h3, h4⟩, h5⟩ := y
    have := ih (off := (Call.next.run src g off).2) (off' := off') (by unfold TokYields; rw [← h4, ← h5]) hn
    rw [List.length_cons, List.replicate_succ, history]
    simp only [List.map_cons, List.cons_append]
    rw [this, h3.2]

theorem nextNonWs_none {off off' : Nat} (h : nextNonWs src off = .ok none off') :
    (Call.next.run src g off).1 = .none := by
  have h1 : tokNext src g off = .ok none off' := by
    unfold tokNext
    rw [M.bind_ok h]
    rfl
  simp only [Call.run, h1]

/-- The whole run. -/
theorem parse_told (hi : Input g src) (d : D.σ) :
    PWp (parseBytes g src cfg (logged D) (d, []))
      (fun _ s => ∃ ts, (history src g (List.replicate (ts.length + 1) .next) 0).1.map Prod.snd = ts.map .token ++ [.none]
        ∧ told s.delegate.2 = notes ts)
      (fun _ s => Behind g src s.delegate.2) AnyPanic := by
  have key := (run_told (g := g) (cfg := cfg) (D := D) hi (parseFuel src)).1 ⟨0, (d, []), cfg.recursionLimit.getD USIZE_MAX⟩
    (Nat.zero_le _) (Told.ws hi (Nat.zero_le _) ⟨[], rfl, rfl⟩)
  unfold parseBytes parseM
  refine PWp.bind key ?_
  rintro a s ⟨hl, ht⟩
  have fin : ∀ (b : Bool) (s1 : PState (logged D).σ), s1 = s → PWp ((if b = true then perr (logged D) 0 ErrorKind.payloadsShouldBeObjectOrArray
        else do
          let r ← liftTok (logged D) (nextNonWs src)
          match r with
            | none => pure a
            | some (offset, _) => perr (logged D) offset ErrorKind.trailingNonWhitespace : PM (logged D) D.Value) s1)
      (fun _ s => ∃ ts, (history src g (List.replicate (ts.length + 1) .next) 0).1.map Prod.snd = ts.map .token ++ [.none]
        ∧ told s.delegate.2 = notes ts)
      (fun _ s => Behind g src s.delegate.2) AnyPanic := by
    rintro b s1 rfl
    cases b with
    | true => exact ht.behind
    | false =>
      refine PWp.bindE (P := fun r s2 => s2.delegate.2 = s1.delegate.2 ∧ nextNonWs src s1.offset = .ok r s2.offset)
        (Q := fun _ s2 => s2.delegate.2 = s1.delegate.2)
        ?_ (fun e s2 q => by rw [q]; exact ht.behind) ?_
      · unfold liftTok
        cases nextNonWs src s1.offset with
        | ok r o => exact ⟨rfl, rfl⟩
        | err e o => exact rfl
        | panic p => trivial
      rintro r s2 ⟨q, hr⟩
      cases r with
      | none =>
        obtain ⟨ts, h1, h2⟩ := ht
        rw [List.append_nil] at h2
        exact ⟨ts, h1.end (nextNonWs_none hr), by rw [q]; exact h2⟩
      | some r =>
        show Behind g src s2.delegate.2
        rw [q]
        exact ht.behind
  simp only []
  split
  · exact fin false s rfl
  · refine PWp.bind (lw_q (q := fun x => D.kindOf x a)) ?_
    rintro k s1 rfl
    exact fin _ s1 rfl

end
end JustJson
