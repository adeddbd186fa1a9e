import Verif.Lemmas.Delegates
import Verif.Lemmas.Basic
import Verif.Spec.Write
/-! # The calls a writer gets, and their text -/

namespace JustJson
open Spec

set_option linter.unusedSectionVars false

section
variable (F : Writer)

theorem makeCalls_append (w : F.W) (a b : List WCall) :
    makeCalls F w (a ++ b) = match makeCalls F w a with
      | (w', true) => makeCalls F w' b
      | (w', false) => (w', false) := by
  induction a generalizing w with
  | nil => rfl
  | cons c a ih =>
    rw [List.cons_append, makeCalls, makeCalls]
    cases h : c.make F w with
    | mk w' o =>
      cases o with
      | true => exact ih w'
      | false => rfl

end

/-- Calls, possibly followed by a panic. -/
structure Tr where
  calls : List WCall
  panic : Option Panic

/-- one after the other -/
def Tr.seq (t t' : Tr) : Tr :=
  match t.panic with
  | none => ⟨t.calls ++ t'.calls, t'.panic⟩
  | some p => ⟨t.calls, some p⟩

theorem Tr.seq_none (cs : List WCall) (t' : Tr) : Tr.seq ⟨cs, none⟩ t' = ⟨cs ++ t'.calls, t'.panic⟩ := rfl

/-- `m` makes the calls of `t`. -/
def WRun (F : Writer) (m : WM F Unit) (l : Nat) (b : Bool) (t : Tr) (l' : Nat) (b' : Bool) : Prop :=
  ∀ w, match makeCalls F w t.calls with
    | (w', true) => m ⟨w, l, b⟩ = (match t.panic with | none => .ok () ⟨w', l', b'⟩ | some p => .panic p)
    | (w', false) => ∃ l2 b2, m ⟨w, l, b⟩ = .err () ⟨w', l2, b2⟩

section
variable {F : Writer}

theorem WRun.bind {m m' : WM F Unit} {l l1 l2 : Nat} {b b1 b2 : Bool} {t t' : Tr} (h : WRun F m l b t l1 b1)
    (h' : WRun F m' l1 b1 t' l2 b2) : WRun F (m >>= fun _ => m') l b (t.seq t') l2 b2 := by
  intro w
  have h1 := h w
  obtain ⟨cs, p⟩ := t
  cases p with
  | some p =>
    show (match makeCalls F w cs with | (w', true) => _ | (w', false) => _)
    simp only [] at h1
    cases hm : makeCalls F w cs with
    | mk w1 o =>
      rw [hm] at h1
      cases o with
      | true =>
        show M.bind m (fun _ => m') _ = .panic p
        unfold M.bind
        rw [show m ⟨w, l, b⟩ = .panic p from h1]
      | false =>
        obtain ⟨l3, b3, h1⟩ := h1
        refine ⟨l3, b3, ?_⟩
        show M.bind m (fun _ => m') _ = _
        unfold M.bind
        rw [h1]
  | none =>
    rw [Tr.seq_none, makeCalls_append]
    simp only [] at h1
    cases hm : makeCalls F w cs with
    | mk w1 o =>
      rw [hm] at h1
      cases o with
      | true =>
        simp only []
        have h2 := h' w1
        have e : (m >>= fun _ => m') ⟨w, l, b⟩ = m' ⟨w1, l1, b1⟩ := by
          show M.bind m (fun _ => m') _ = _
          unfold M.bind
          rw [show m ⟨w, l, b⟩ = .ok () ⟨w1, l1, b1⟩ from h1]
        rw [e]
        exact h2
      | false =>
        obtain ⟨l3, b3, h1⟩ := h1
        refine ⟨l3, b3, ?_⟩
        show M.bind m (fun _ => m') _ = _
        unfold M.bind
        rw [h1]

theorem WRun.tr {m : WM F Unit} {l l' : Nat} {b b' : Bool} {t t' : Tr} (h : WRun F m l b t l' b') (e : t = t') :
    WRun F m l b t' l' b' := e ▸ h

theorem WRun.pure (l : Nat) (b : Bool) : WRun F (M.pure ()) l b ⟨[], none⟩ l b := fun _ => rfl

theorem WRun.modify (f : WState F.W → WState F.W) (l l' : Nat) (b b' : Bool) (h : ∀ w, f ⟨w, l, b⟩ = ⟨w, l', b'⟩) :
    WRun F (M.modify f) l b ⟨[], none⟩ l' b' := by
  intro w
  show Out.ok () (f ⟨w, l, b⟩) = _
  rw [h]

theorem WRun.str (s : Str) (l : Nat) (b : Bool) : WRun F (wStr F s) l b ⟨[.str s], none⟩ l b := by
  intro w
  show (match (match F.writeStr w s with | (w', true) => (w', true) | (w', false) => (w', false)) with | (w', true) => _ | (w', false) => _)
  unfold wStr
  cases F.writeStr w s with
  | mk w' o =>
    cases o with
    | true => rfl
    | false => exact ⟨l, b, rfl⟩

theorem WRun.char (c : Char) (l : Nat) (b : Bool) : WRun F (wChar F c) l b ⟨[.char c], none⟩ l b := by
  intro w
  show (match (match F.writeChar w c with | (w', true) => (w', true) | (w', false) => (w', false)) with | (w', true) => _ | (w', false) => _)
  unfold wChar
  cases F.writeChar w c with
  | mk w' o =>
    cases o with
    | true => rfl
    | false => exact ⟨l, b, rfl⟩

variable (pretty : Bool) (indent lineEnding : Str)

theorem WRun.indents (n l : Nat) (b : Bool) : WRun F (wIndent F indent n) l b ⟨List.replicate n (.str indent), none⟩ l b := by
  induction n with
  | zero => exact WRun.pure l b
  | succ n ih => exact (WRun.str indent l b).bind ih

/-- calls for the indentation -/
def indTr (l : Nat) (b : Bool) : List WCall := if pretty && b then List.replicate l (.str indent) else []

theorem WRun.prologue (l : Nat) (b : Bool) :
    WRun F (wPrologue F pretty indent) l b ⟨indTr pretty indent l b, none⟩ l (b && !pretty) := by
  intro w
  have e : wPrologue F pretty indent ⟨w, l, b⟩ = (if pretty && b then
      ((M.modify fun st => { st with isAtLineStart := false }) >>= fun _ => wIndent F indent l : WM F Unit) ⟨w, l, b⟩
    else .ok () ⟨w, l, b⟩) := by
    cases pretty <;> cases b <;> rfl
  unfold indTr
  by_cases h : (pretty && b) = true
  · rw [e, if_pos h, if_pos h]
    have := (WRun.modify (F := F) (fun st => { st with isAtLineStart := false }) l l b (b && !pretty)
      (fun w => by cases pretty <;> cases b <;> first | rfl | cases h)).bind (WRun.indents (F := F) indent l l (b && !pretty))
    exact this w
  · rw [e, if_neg h, if_neg h]
    have : (b && !pretty) = b := by cases pretty <;> cases b <;> first | rfl | exact absurd rfl h
    rw [this]
    rfl

theorem WRun.write (s : Str) (l : Nat) (b : Bool) :
    WRun F (wWrite F pretty indent s) l b ⟨indTr pretty indent l b ++ [.str s], none⟩ l (b && !pretty) :=
  (WRun.prologue pretty indent l b).bind (WRun.str s l _)

/-- calls for a line ending -/
def nlTr (l : Nat) (b : Bool) : List WCall := if pretty then indTr pretty indent l b ++ [.str lineEnding] else []

theorem WRun.newLine (l : Nat) (b : Bool) :
    WRun F (wNewLine F pretty indent lineEnding) l b ⟨nlTr pretty indent lineEnding l b, none⟩ l (b || pretty) := by
  unfold wNewLine nlTr
  cases pretty with
  | false => simpa using WRun.pure l b
  | true =>
    simp only [if_true]
    have := (WRun.write (F := F) true indent lineEnding l b).bind (WRun.modify (F := F) (fun st => { st with isAtLineStart := true }) l l _ (b || true)
      (fun w => by simp))
    simpa [Tr.seq] using this

section
variable [Arch]

/-- calls for the characters of `as_json` -/
def asJsonTr : Nat → AsJson → Tr
  | 0, _ => ⟨[], some .fuel⟩
  | n + 1, a =>
    match a.next with
    | .panic p => ⟨[], some p⟩
    | .ok none => ⟨[], none⟩
    | .ok (some (c, a')) => Tr.seq ⟨[.char c], none⟩ (asJsonTr n a')

theorem WRun.asJson (n : Nat) (a : AsJson) (l : Nat) (b : Bool) : WRun F (wAsJson F n a) l b (asJsonTr n a) l b := by
  induction n generalizing a with
  | zero => intro w; rfl
  | succ n ih =>
    rw [wAsJson, asJsonTr]
    cases h : a.next with
    | panic p => intro w; rfl
    | ok o =>
      cases o with
      | none => exact WRun.pure l b
      | some q =>
        obtain ⟨c, a'⟩ := q
        exact (WRun.char c l b).bind (ih a')

/-- calls for a string -/
def strTr (l : Nat) (b : Bool) (s : JsonString) : Tr :=
  Tr.seq ⟨indTr pretty indent l b, none⟩ (Tr.seq ⟨[.str ['"']], none⟩
    (Tr.seq (asJsonTr (6 * (AsJson.new s.source s.info).chars.length + 7) (AsJson.new s.source s.info)) ⟨[.str ['"']], none⟩))

theorem WRun.writeJson (s : JsonString) (l : Nat) (b : Bool) :
    WRun F (wWriteJson F pretty indent s) l b (strTr pretty indent l b s) l (b && !pretty) :=
  (WRun.prologue pretty indent l b).bind ((WRun.str ['"'] l _).bind ((WRun.asJson _ _ l _).bind (WRun.str ['"'] l _)))

theorem WRun.begin (s : Str) (l : Nat) (b : Bool) :
    WRun F (wBegin F pretty indent s) l b ⟨indTr pretty indent l b ++ [.str s], none⟩ (l + 1) (b && !pretty) := by
  have := (WRun.write (F := F) pretty indent s l b).bind (WRun.modify (F := F) (fun st => { st with level := st.level + 1 }) l (l + 1) _ _ (fun _ => rfl))
  exact this.tr (by simp [Tr.seq])

theorem WRun.end (s : Str) (l : Nat) (b : Bool) :
    WRun F (wEnd F pretty indent s) (l + 1) b ⟨indTr pretty indent l b ++ [.str s], none⟩ l (b && !pretty) := by
  have := (WRun.modify (F := F) (fun st => { st with level := st.level - 1 }) (l + 1) l b b (fun _ => rfl)).bind
    (WRun.write (F := F) pretty indent s l b)
  exact this

mutual
/-- calls for a value -/
def valueTr (l : Nat) (b : Bool) : Value → Tr
  | .string s => strTr pretty indent l b s
  | .number n => ⟨indTr pretty indent l b ++ [.str n.sourceStr], none⟩
  | .boolean t => ⟨indTr pretty indent l b ++ [.str (if t then ['t', 'r', 'u', 'e'] else ['f', 'a', 'l', 's', 'e'])], none⟩
  | .null => ⟨indTr pretty indent l b ++ [.str ['n', 'u', 'l', 'l']], none⟩
  | .object [] => ⟨indTr pretty indent l b ++ [.str ['{'], .str ['}']], none⟩
  | .object (e :: es) =>
    Tr.seq ⟨indTr pretty indent l b ++ [.str ['{']] ++ nlTr pretty indent lineEnding (l + 1) (b && !pretty), none⟩
      (Tr.seq (entriesTr (l + 1) (b || pretty) (e :: es)) ⟨indTr pretty indent l (b || pretty) ++ [.str ['}']], none⟩)
  | .array [] => ⟨indTr pretty indent l b ++ [.str ['['], .str [']']], none⟩
  | .array (v :: vs) =>
    Tr.seq ⟨indTr pretty indent l b ++ [.str ['[']] ++ nlTr pretty indent lineEnding (l + 1) (b && !pretty), none⟩
      (Tr.seq (elemsTr (l + 1) (b || pretty) (v :: vs)) ⟨indTr pretty indent l (b || pretty) ++ [.str [']']], none⟩)
/-- for entries -/
def entriesTr (l : Nat) (b : Bool) : List (JsonString × Value) → Tr
  | [] => ⟨[], none⟩
  | (k, v) :: es =>
    Tr.seq (strTr pretty indent l b k) (Tr.seq ⟨[.str (if pretty then [':', ' '] else [':'])], none⟩
      (Tr.seq (valueTr l (b && !pretty) v)
        (Tr.seq ⟨(if es.isEmpty then [] else [.str [',']]) ++ (if pretty then [.str lineEnding] else []), none⟩ (entriesTr l b es))))
/-- for elements -/
def elemsTr (l : Nat) (b : Bool) : List Value → Tr
  | [] => ⟨[], none⟩
  | v :: vs =>
    Tr.seq (valueTr l b v)
      (Tr.seq ⟨(if vs.isEmpty then [] else [.str [',']]) ++ (if pretty then [.str lineEnding] else []), none⟩ (elemsTr l b vs))
end

theorem indTr_off (l : Nat) (b : Bool) : indTr pretty indent l (b && !pretty) = [] := by
  cases pretty <;> cases b <;> rfl

theorem nlTr_off (l : Nat) (b : Bool) : nlTr pretty indent lineEnding l (b && !pretty) = if pretty then [.str lineEnding] else [] := by
  cases pretty <;> cases b <;> rfl

theorem off_off (b : Bool) : ((b && !pretty) && !pretty) = (b && !pretty) := by cases pretty <;> cases b <;> rfl
theorem on_on (b : Bool) : ((b || pretty) || pretty) = (b || pretty) := by cases pretty <;> cases b <;> rfl
theorem on_off (b : Bool) : ((b || pretty) && !pretty) = (b && !pretty) := by cases pretty <;> cases b <;> rfl
theorem off_on (b : Bool) : ((b && !pretty) || pretty) = (b || pretty) := by cases pretty <;> cases b <;> rfl

theorem WRun.sep (c : Bool) (l : Nat) (b : Bool) :
    WRun F ((if c = true then wWrite F pretty indent [','] else M.pure ()) >>= fun _ => wNewLine F pretty indent lineEnding) l (b && !pretty)
      ⟨(if c then [.str [',']] else []) ++ (if pretty then [.str lineEnding] else []), none⟩ l (b || pretty) := by
  have hn := WRun.newLine (F := F) pretty indent lineEnding l (b && !pretty)
  rw [nlTr_off, off_on] at hn
  cases c with
  | true =>
    have hw := WRun.write (F := F) pretty indent [','] l (b && !pretty)
    rw [indTr_off, off_off] at hw
    exact hw.bind hn
  | false => exact (WRun.pure l _).bind hn

theorem writeEntries_cons (len i : Nat) (k : JsonString) (v : Value) (es : Object) :
    writeEntries F pretty indent lineEnding len i ((k, v) :: es) =
      (wWriteJson F pretty indent k >>= fun _ => wWrite F pretty indent (if pretty then [':', ' '] else [':']) >>= fun _ =>
        writeValue F pretty indent lineEnding v >>= fun _ =>
          ((if i ≠ len - 1 then wWrite F pretty indent [','] else M.pure ()) >>= fun _ => wNewLine F pretty indent lineEnding) >>= fun _ =>
            writeEntries F pretty indent lineEnding len (i + 1) es) := by
  rw [writeEntries]
  by_cases h : i ≠ len - 1
  · simp only [if_pos h]
    congr 1; funext _; congr 1; funext _; congr 1; funext _; funext s
    show M.bind _ (fun _ => M.bind _ fun _ => _) s = M.bind (M.bind _ fun _ => _) (fun _ => _) s
    unfold M.bind
    cases wWrite F pretty indent [','] s <;> rfl
  · simp only [if_neg h]
    rfl

theorem writeValues_cons (len i : Nat) (v : Value) (es : List Value) :
    writeValues F pretty indent lineEnding len i (v :: es) =
      (writeValue F pretty indent lineEnding v >>= fun _ =>
          ((if i ≠ len - 1 then wWrite F pretty indent [','] else M.pure ()) >>= fun _ => wNewLine F pretty indent lineEnding) >>= fun _ =>
            writeValues F pretty indent lineEnding len (i + 1) es) := by
  rw [writeValues]
  by_cases h : i ≠ len - 1
  · simp only [if_pos h]
    congr 1; funext _; funext s
    show M.bind _ (fun _ => M.bind _ fun _ => _) s = M.bind (M.bind _ fun _ => _) (fun _ => _) s
    unfold M.bind
    cases wWrite F pretty indent [','] s <;> rfl
  · simp only [if_neg h]
    rfl

/-- The flag at the start of the lines of a container. -/
theorem WRun.value :
    (∀ (v : Value) l b, WRun F (writeValue F pretty indent lineEnding v) l b (valueTr pretty indent lineEnding l b v) l (b && !pretty))
    ∧ (∀ (es : Object) len i l b, (b || pretty) = b → i + es.length = len →
        WRun F (writeEntries F pretty indent lineEnding len i es) l b (entriesTr pretty indent lineEnding l b es) l b)
    ∧ (∀ (vs : List Value) len i l b, (b || pretty) = b → i + vs.length = len →
        WRun F (writeValues F pretty indent lineEnding len i vs) l b (elemsTr pretty indent lineEnding l b vs) l b) := by
  apply Value.induct
  · intro l b; exact WRun.write pretty indent _ l b
  · intro t l b; exact WRun.write pretty indent _ l b
  · intro n l b; exact WRun.write pretty indent _ l b
  · intro s l b; exact WRun.writeJson pretty indent s l b
  · intro es ih l b
    cases es with
    | nil =>
      have he := WRun.end (F := F) pretty indent ['}'] l (b && !pretty)
      rw [indTr_off, off_off] at he
      have := (WRun.begin (F := F) pretty indent ['{'] l b).bind ((WRun.pure (l + 1) (b && !pretty)).bind he)
      rw [writeValue]
      exact this.tr (by simp [Tr.seq, valueTr])
    | cons e es =>
      have he := WRun.end (F := F) pretty indent ['}'] l (b || pretty)
      rw [on_off] at he
      have hn := WRun.newLine (F := F) pretty indent lineEnding (l + 1) (b && !pretty)
      rw [off_on] at hn
      have hb := ih (e :: es).length 0 (l + 1) (b || pretty) (on_on pretty b) (Nat.zero_add _)
      have := (WRun.begin (F := F) pretty indent ['{'] l b).bind ((hn.bind hb).bind he)
      have e2 : ∀ t t' : Tr, Tr.seq (Tr.seq ⟨nlTr pretty indent lineEnding (l + 1) (b && !pretty), none⟩ t) t'
          = Tr.seq ⟨nlTr pretty indent lineEnding (l + 1) (b && !pretty), none⟩ (Tr.seq t t') := by
        rintro ⟨cs, p⟩ t'
        cases p <;> simp [Tr.seq]
      rw [e2] at this
      have hw : writeValue F pretty indent lineEnding (.object (e :: es)) = (wBegin F pretty indent ['{'] >>= fun _ =>
          (wNewLine F pretty indent lineEnding >>= fun _ => writeEntries F pretty indent lineEnding (e :: es).length 0 (e :: es)) >>= fun _ =>
            wEnd F pretty indent ['}']) := by
        rw [writeValue]
        congr 1; funext _; funext s
        show M.bind _ (fun _ => M.bind _ fun _ => _) s = M.bind (M.bind _ fun _ => _) (fun _ => _) s
        unfold M.bind
        cases wNewLine F pretty indent lineEnding s <;> rfl
      rw [hw]
      refine this.tr ?_
      simp [Tr.seq, valueTr]
  · intro es ih l b
    cases es with
    | nil =>
      have he := WRun.end (F := F) pretty indent [']'] l (b && !pretty)
      rw [indTr_off, off_off] at he
      have := (WRun.begin (F := F) pretty indent ['['] l b).bind ((WRun.pure (l + 1) (b && !pretty)).bind he)
      rw [writeValue]
      exact this.tr (by simp [Tr.seq, valueTr])
    | cons e es =>
      have he := WRun.end (F := F) pretty indent [']'] l (b || pretty)
      rw [on_off] at he
      have hn := WRun.newLine (F := F) pretty indent lineEnding (l + 1) (b && !pretty)
      rw [off_on] at hn
      have hb := ih (e :: es).length 0 (l + 1) (b || pretty) (on_on pretty b) (Nat.zero_add _)
      have := (WRun.begin (F := F) pretty indent ['['] l b).bind ((hn.bind hb).bind he)
      have e2 : ∀ t t' : Tr, Tr.seq (Tr.seq ⟨nlTr pretty indent lineEnding (l + 1) (b && !pretty), none⟩ t) t'
          = Tr.seq ⟨nlTr pretty indent lineEnding (l + 1) (b && !pretty), none⟩ (Tr.seq t t') := by
        rintro ⟨cs, p⟩ t'
        cases p <;> simp [Tr.seq]
      rw [e2] at this
      have hw : writeValue F pretty indent lineEnding (.array (e :: es)) = (wBegin F pretty indent ['['] >>= fun _ =>
          (wNewLine F pretty indent lineEnding >>= fun _ => writeValues F pretty indent lineEnding (e :: es).length 0 (e :: es)) >>= fun _ =>
            wEnd F pretty indent [']']) := by
        rw [writeValue]
        congr 1; funext _; funext s
        show M.bind _ (fun _ => M.bind _ fun _ => _) s = M.bind (M.bind _ fun _ => _) (fun _ => _) s
        unfold M.bind
        cases wNewLine F pretty indent lineEnding s <;> rfl
      rw [hw]
      refine this.tr ?_
      simp [Tr.seq, valueTr]
  · intro len i l b hb hi
    exact WRun.pure l b
  · intro k v es ihv ih len i l b hb hi
    rw [writeEntries_cons, entriesTr]
    have hk := WRun.writeJson (F := F) pretty indent k l b
    have hke := WRun.write (F := F) pretty indent (if pretty then [':', ' '] else [':']) l (b && !pretty)
    rw [indTr_off, off_off] at hke
    have hv := ihv l (b && !pretty)
    rw [off_off] at hv
    have hs := WRun.sep (F := F) pretty indent lineEnding (!es.isEmpty) l b
    rw [hb] at hs
    have hr := ih len (i + 1) l b hb (by simp at hi; omega)
    have hc : (i ≠ len - 1) ↔ (!es.isEmpty) = true := by
      cases es with
      | nil => simp at hi ⊢; omega
      | cons e es => simp at hi ⊢; omega
    have hs' : WRun F ((if i ≠ len - 1 then wWrite F pretty indent [','] else M.pure ()) >>= fun _ => wNewLine F pretty indent lineEnding) l (b && !pretty)
        ⟨(if es.isEmpty then [] else [.str [',']]) ++ (if pretty then [.str lineEnding] else []), none⟩ l b := by
      have e1 : (if i ≠ len - 1 then wWrite F pretty indent [','] else M.pure () : WM F Unit) = (if (!es.isEmpty) = true then wWrite F pretty indent [','] else M.pure ()) := by
        by_cases h : i ≠ len - 1
        · rw [if_pos h, if_pos (hc.mp h)]
        · rw [if_neg h, if_neg (fun h' => h (hc.mpr h'))]
      rw [e1]
      have e2 : (if es.isEmpty then [] else [WCall.str [',']]) = if (!es.isEmpty) then [WCall.str [',']] else [] := by cases es <;> rfl
      rw [e2]
      exact hs
    exact hk.bind (hke.bind (hv.bind (hs'.bind hr)))
  · intro len i l b hb hi
    exact WRun.pure l b
  · intro v es ihv ih len i l b hb hi
    rw [writeValues_cons, elemsTr]
    have hv := ihv l b
    have hs := WRun.sep (F := F) pretty indent lineEnding (!es.isEmpty) l b
    rw [hb] at hs
    have hr := ih len (i + 1) l b hb (by simp at hi; omega)
    have hc : (i ≠ len - 1) ↔ (!es.isEmpty) = true := by
      cases es with
      | nil => simp at hi ⊢; omega
      | cons e es => simp at hi ⊢; omega
    have hs' : WRun F ((if i ≠ len - 1 then wWrite F pretty indent [','] else M.pure ()) >>= fun _ => wNewLine F pretty indent lineEnding) l (b && !pretty)
        ⟨(if es.isEmpty then [] else [.str [',']]) ++ (if pretty then [.str lineEnding] else []), none⟩ l b := by
      have e1 : (if i ≠ len - 1 then wWrite F pretty indent [','] else M.pure () : WM F Unit) = (if (!es.isEmpty) = true then wWrite F pretty indent [','] else M.pure ()) := by
        by_cases h : i ≠ len - 1
        · rw [if_pos h, if_pos (hc.mp h)]
        · rw [if_neg h, if_neg (fun h' => h (hc.mpr h'))]
      rw [e1]
      have e2 : (if es.isEmpty then [] else [WCall.str [',']]) = if (!es.isEmpty) then [WCall.str [',']] else [] := by cases es <;> rfl
      rw [e2]
      exact hs
    exact hv.bind (hs'.bind hr)


theorem asJsonTr_ok {n : Nat} {a af : AsJson} {out : Str} (h : a.collectFuel n = .ok (out, af)) :
    asJsonTr n a = ⟨out.map .char, none⟩ := by
  induction n generalizing a af out with
  | zero => cases h
  | succ n ih =>
    rw [AsJson.collectFuel] at h
    rw [asJsonTr]
    cases hn : a.next with
    | panic p => rw [hn] at h; cases h
    | ok o =>
      rw [hn] at h
      cases o with
      | none => cases h; rfl
      | some q =>
        obtain ⟨c, a'⟩ := q
        simp only [] at h ⊢
        cases hr : AsJson.collectFuel n a' with
        | panic p => rw [hr] at h; cases h
        | ok q =>
          obtain ⟨o2, af'⟩ := q
          rw [hr] at h
          cases h
          rw [ih hr]
          rfl

theorem asJsonTr_panic {n : Nat} {a : AsJson} {p : Panic} (h : a.collectFuel n = .panic p) :
    (asJsonTr n a).panic = some p := by
  induction n generalizing a with
  | zero => cases h; rfl
  | succ n ih =>
    rw [AsJson.collectFuel] at h
    rw [asJsonTr]
    cases hn : a.next with
    | panic p => rw [hn] at h; cases h; rfl
    | ok o =>
      rw [hn] at h
      cases o with
      | none => cases h
      | some q =>
        obtain ⟨c, a'⟩ := q
        simp only [] at h ⊢
        cases hr : AsJson.collectFuel n a' with
        | panic p => rw [hr] at h; cases h; exact ih hr
        | ok q =>
          obtain ⟨o2, af'⟩ := q
          rw [hr] at h
          cases h

theorem texts_append (a b : List WCall) : WCall.texts (a ++ b) = WCall.texts a ++ WCall.texts b := by
  unfold WCall.texts; rw [List.flatMap_append]

theorem texts_str (s : Str) : WCall.texts [.str s] = s := by
  unfold WCall.texts WCall.text; simp

theorem texts_map (s : Str) : WCall.texts (s.map .char) = s := by
  induction s with
  | nil => rfl
  | cons c s ih =>
    have : WCall.texts ((c :: s).map .char) = [c] ++ WCall.texts (s.map .char) := rfl
    rw [this, ih]; rfl

theorem texts_ind (l : Nat) (b : Bool) : WCall.texts (indTr pretty indent l b) = if pretty && b then indented indent l else [] := by
  unfold indTr indented
  split
  · unfold WCall.texts
    induction l with
    | zero => rfl
    | succ n ih => rw [List.replicate_succ, List.flatMap_cons, ih]; rfl
  · rfl

variable {body : JsonString → Str}

theorem strTr_ok {s : JsonString} {t : Str} (l : Nat) (b : Bool) (h : s.asJson = .ok t) :
    (strTr pretty indent l b s).panic = none
    ∧ WCall.texts (strTr pretty indent l b s).calls = (if pretty && b then indented indent l else []) ++ quoted t := by
  unfold JsonString.asJson at h
  cases hc : (AsJson.new s.source s.info).collect with
  | panic p => rw [hc] at h; cases h
  | ok q =>
    obtain ⟨o, af⟩ := q
    rw [hc] at h
    cases h
    have := asJsonTr_ok hc
    unfold strTr
    rw [this]
    refine ⟨rfl, ?_⟩
    show WCall.texts (indTr pretty indent l b ++ ([.str ['"']] ++ (o.map .char ++ [.str ['"']]))) = _
    rw [texts_append, texts_append, texts_append, texts_str, texts_map, texts_ind]
    rfl

theorem strTr_panic {s : JsonString} {p : Panic} (l : Nat) (b : Bool) (h : s.asJson = .panic p) :
    (strTr pretty indent l b s).panic = some p := by
  unfold JsonString.asJson at h
  cases hc : (AsJson.new s.source s.info).collect with
  | ok q => rw [hc] at h; cases h
  | panic p =>
    rw [hc] at h
    cases h
    have := asJsonTr_panic hc
    unfold strTr
    simp only [Tr.seq]
    rw [this]

theorem Tr.seq_ok {t t' : Tr} (h : t.panic = none) : (Tr.seq t t').calls = t.calls ++ t'.calls ∧ (Tr.seq t t').panic = t'.panic := by
  unfold Tr.seq; rw [h]; exact ⟨rfl, rfl⟩

theorem Tr.seq_eq {t : Tr} (h : t.panic = none) (t' : Tr) : Tr.seq t t' = ⟨t.calls ++ t'.calls, t'.panic⟩ := by
  unfold Tr.seq; rw [h]

theorem texts_nil : WCall.texts [] = [] := rfl

/-- The text of the calls in compact form. -/
theorem compact_text (b : Bool) :
    (∀ v : Value, (∀ s ∈ v.strings, s.asJson = .ok (body s)) → ∀ l, (valueTr false indent lineEnding l b v).panic = none
      ∧ WCall.texts (valueTr false indent lineEnding l b v).calls = compact body v)
    ∧ (∀ es : Object, (∀ s ∈ Value.stringsEntries es, s.asJson = .ok (body s)) → ∀ l, (entriesTr false indent lineEnding l b es).panic = none
      ∧ WCall.texts (entriesTr false indent lineEnding l b es).calls = joined [','] (compactEntries body es))
    ∧ (∀ vs : List Value, (∀ s ∈ Value.stringsElems vs, s.asJson = .ok (body s)) → ∀ l, (elemsTr false indent lineEnding l b vs).panic = none
      ∧ WCall.texts (elemsTr false indent lineEnding l b vs).calls = joined [','] (compactElems body vs)) := by
  have hb : (b && !false) = b := by cases b <;> rfl
  have hb' : (b || false) = b := by cases b <;> rfl
  apply Value.induct
  · intro _ l; rw [valueTr, compact]; exact ⟨rfl, rfl⟩
  · intro t _ l; rw [valueTr, compact]; cases t <;> exact ⟨rfl, rfl⟩
  · intro n _ l; rw [valueTr, compact]; exact ⟨rfl, by simp [indTr, texts_str]⟩
  · intro s hs l; rw [valueTr, compact]
    have := strTr_ok false indent l b (hs s (by simp [Value.strings]))
    simpa using this
  · intro es ih hs l
    rw [Value.strings] at hs
    cases es with
    | nil => rw [valueTr, compact]; exact ⟨rfl, rfl⟩
    | cons e es =>
      obtain ⟨h1, h2⟩ := ih hs (l + 1)
      simp only [valueTr, compact]
      rw [hb']
      obtain ⟨h3, h4⟩ := Tr.seq_ok (t' := ⟨indTr false indent l b ++ [.str ['}']], none⟩) h1
      rw [Tr.seq_none]
      refine ⟨h4, ?_⟩
      simp only []
      rw [h3]; simp only [texts_append]; rw [h2]
      simp [indTr, nlTr, texts_str, texts_nil]
  · intro es ih hs l
    rw [Value.strings] at hs
    cases es with
    | nil => rw [valueTr, compact]; exact ⟨rfl, rfl⟩
    | cons e es =>
      obtain ⟨h1, h2⟩ := ih hs (l + 1)
      simp only [valueTr, compact]
      rw [hb']
      obtain ⟨h3, h4⟩ := Tr.seq_ok (t' := ⟨indTr false indent l b ++ [.str [']']], none⟩) h1
      rw [Tr.seq_none]
      refine ⟨h4, ?_⟩
      simp only []
      rw [h3]; simp only [texts_append]; rw [h2]
      simp [indTr, nlTr, texts_str, texts_nil]
  · intro _ l; exact ⟨rfl, rfl⟩
  · intro k v es ihv ih hs l
    rw [Value.stringsEntries] at hs
    obtain ⟨k1, k2⟩ := strTr_ok false indent l b (hs k (by simp))
    obtain ⟨v1, v2⟩ := ihv (fun s h => hs s (by simp [h])) l
    obtain ⟨e1, e2⟩ := ih (fun s h => hs s (by simp [h])) l
    rw [entriesTr, hb]
    rw [Tr.seq_eq k1, Tr.seq_none, Tr.seq_eq v1, Tr.seq_none]
    refine ⟨e1, ?_⟩
    simp only [texts_append]; rw [k2, v2, e2, texts_str, compactEntries]
    cases es with
    | nil => simp [compactEntries, joined, WCall.texts]
    | cons e es => obtain ⟨k', v'⟩ := e; simp [compactEntries, joined, WCall.texts, WCall.text]
  · intro _ l; exact ⟨rfl, rfl⟩
  · intro v es ihv ih hs l
    rw [Value.stringsElems] at hs
    obtain ⟨v1, v2⟩ := ihv (fun s h => hs s (by simp [h])) l
    obtain ⟨e1, e2⟩ := ih (fun s h => hs s (by simp [h])) l
    rw [elemsTr]
    rw [Tr.seq_eq v1, Tr.seq_none]
    refine ⟨e1, ?_⟩
    simp only [texts_append]; rw [v2, e2, compactElems]
    cases es with
    | nil => simp [compactElems, joined, WCall.texts]
    | cons e es => simp [compactElems, joined, WCall.texts, WCall.text]

/-- The text of the calls in pretty form. -/
theorem layout_text :
    (∀ v : Value, (∀ s ∈ v.strings, s.asJson = .ok (body s)) → ∀ l b, (valueTr true indent lineEnding l b v).panic = none
      ∧ WCall.texts (valueTr true indent lineEnding l b v).calls = (if b then indented indent l else []) ++ layout body indent lineEnding l v)
    ∧ (∀ es : Object, (∀ s ∈ Value.stringsEntries es, s.asJson = .ok (body s)) → ∀ l, (entriesTr true indent lineEnding l true es).panic = none
      ∧ WCall.texts (entriesTr true indent lineEnding l true es).calls = joined (',' :: lineEnding) (layoutEntries body indent lineEnding l es)
        ++ if es.isEmpty then [] else lineEnding)
    ∧ (∀ vs : List Value, (∀ s ∈ Value.stringsElems vs, s.asJson = .ok (body s)) → ∀ l, (elemsTr true indent lineEnding l true vs).panic = none
      ∧ WCall.texts (elemsTr true indent lineEnding l true vs).calls = joined (',' :: lineEnding) (layoutElems body indent lineEnding l vs)
        ++ if vs.isEmpty then [] else lineEnding) := by
  have hb : (true && !true) = false := rfl
  apply Value.induct
  · intro _ l b; rw [valueTr, layout]; exact ⟨rfl, by rw [texts_append, texts_ind]; rfl⟩
  · intro t _ l b; rw [valueTr, layout]; exact ⟨rfl, by rw [texts_append, texts_ind]; cases t <;> rfl⟩
  · intro n _ l b; rw [valueTr, layout]; exact ⟨rfl, by rw [texts_append, texts_ind, texts_str]; rfl⟩
  · intro s hs l b; rw [valueTr, layout]
    have := strTr_ok true indent l b (hs s (by simp [Value.strings]))
    simpa using this
  · intro es ih hs l b
    rw [Value.strings] at hs
    cases es with
    | nil => rw [valueTr, layout]; exact ⟨rfl, by rw [texts_append, texts_ind]; rfl⟩
    | cons e es =>
      obtain ⟨h1, h2⟩ := ih hs (l + 1)
      simp only [valueTr, layout, Bool.or_true]
      obtain ⟨h3, h4⟩ := Tr.seq_ok (t' := ⟨indTr true indent l true ++ [.str ['}']], none⟩) h1
      rw [Tr.seq_none]
      refine ⟨h4, ?_⟩
      simp only []
      rw [h3]; simp only [texts_append]; rw [h2, texts_ind, texts_ind]
      simp [indTr, nlTr, texts_str, texts_nil]
  · intro es ih hs l b
    rw [Value.strings] at hs
    cases es with
    | nil => rw [valueTr, layout]; exact ⟨rfl, by rw [texts_append, texts_ind]; rfl⟩
    | cons e es =>
      obtain ⟨h1, h2⟩ := ih hs (l + 1)
      simp only [valueTr, layout, Bool.or_true]
      obtain ⟨h3, h4⟩ := Tr.seq_ok (t' := ⟨indTr true indent l true ++ [.str [']']], none⟩) h1
      rw [Tr.seq_none]
      refine ⟨h4, ?_⟩
      simp only []
      rw [h3]; simp only [texts_append]; rw [h2, texts_ind, texts_ind]
      simp [indTr, nlTr, texts_str, texts_nil]
  · intro _ l; exact ⟨rfl, rfl⟩
  · intro k v es ihv ih hs l
    rw [Value.stringsEntries] at hs
    obtain ⟨k1, k2⟩ := strTr_ok true indent l true (hs k (by simp))
    obtain ⟨v1, v2⟩ := ihv (fun s h => hs s (by simp [h])) l false
    obtain ⟨e1, e2⟩ := ih (fun s h => hs s (by simp [h])) l
    rw [entriesTr, hb]
    rw [Tr.seq_eq k1, Tr.seq_none, Tr.seq_eq v1, Tr.seq_none]
    refine ⟨e1, ?_⟩
    simp only [texts_append]; rw [k2, v2, e2, texts_str, layoutEntries]
    cases es with
    | nil => simp [layoutEntries, joined, WCall.texts, WCall.text]
    | cons e es => obtain ⟨k', v'⟩ := e; simp [layoutEntries, joined, WCall.texts, WCall.text]
  · intro _ l; exact ⟨rfl, rfl⟩
  · intro v es ihv ih hs l
    rw [Value.stringsElems] at hs
    obtain ⟨v1, v2⟩ := ihv (fun s h => hs s (by simp [h])) l true
    obtain ⟨e1, e2⟩ := ih (fun s h => hs s (by simp [h])) l
    rw [elemsTr]
    rw [Tr.seq_eq v1, Tr.seq_none]
    refine ⟨e1, ?_⟩
    simp only [texts_append]; rw [v2, e2, layoutElems]
    cases es with
    | nil => simp [layoutElems, joined, WCall.texts, WCall.text]
    | cons e es => simp [layoutElems, joined, WCall.texts, WCall.text]

/-! ## Whole calls -/

/-- what becomes of the calls -/
def Tr.result (t : Tr) (F : Writer) (w : F.W) : Res (F.W × Bool) :=
  match makeCalls F w t.calls with
  | (w', true) => (match t.panic with | none => .ok (w', true) | some p => .panic p)
  | (w', false) => .ok (w', false)

theorem writeJson_result (F : Writer) (v : Value) (w : F.W) :
    v.writeJson F pretty indent lineEnding w = (valueTr pretty indent lineEnding 0 true v).result F w := by
  have h := (WRun.value (F := F) pretty indent lineEnding).1 v 0 true w
  unfold Value.writeJson Tr.result
  cases hm : makeCalls F w (valueTr pretty indent lineEnding 0 true v).calls with
  | mk w' o =>
    rw [hm] at h
    cases o with
    | true =>
      simp only [] at h ⊢
      rw [h]
      cases (valueTr pretty indent lineEnding 0 true v).panic <;> rfl
    | false =>
      obtain ⟨l, b, h⟩ := h
      rw [h]

theorem makeCalls_string (w : Str) (cs : List WCall) : makeCalls stringWriter w cs = (w ++ WCall.texts cs, true) := by
  induction cs generalizing w with
  | nil =>
    show (w, true) = (w ++ [], true)
    rw [List.append_nil]
  | cons c cs ih =>
    cases c with
    | str s =>
      refine (ih (w ++ s)).trans ?_
      show _ = (w ++ (s ++ WCall.texts cs), true)
      rw [List.append_assoc]
    | char s =>
      refine (ih (w ++ [s])).trans ?_
      show _ = (w ++ ([s] ++ WCall.texts cs), true)
      rw [List.append_assoc]

/-- what the calls make of an empty `String` -/
theorem intoString_result (t : Tr) {f : stringWriter.W → Res (stringWriter.W × Bool)} (hf : ∀ w, f w = t.result stringWriter w) :
    intoString f = match t.panic with | none => .ok (WCall.texts t.calls) | some p => .panic p := by
  have h := hf ([] : Str)
  unfold Tr.result at h
  rw [makeCalls_string] at h
  unfold intoString
  rw [h]
  cases t.panic <;> rfl

theorem toJson_compact {v : Value} (h : ∀ s ∈ v.strings, s.asJson = .ok (body s)) : v.toJson = .ok (compact body v) := by
  refine (intoString_result _ (fun w => writeJson_result false [] [] stringWriter v w)).trans ?_
  obtain ⟨h1, h2⟩ := (compact_text (body := body) [] [] true).1 v h 0
  rw [h1, h2]

theorem pretty_layout {v : Value} (h : ∀ s ∈ v.strings, s.asJson = .ok (body s)) :
    v.toJsonPrettyCustom indent lineEnding = .ok (layout body indent lineEnding 0 v) := by
  refine (intoString_result _ (fun w => writeJson_result true indent lineEnding stringWriter v w)).trans ?_
  obtain ⟨h1, h2⟩ := (layout_text (body := body) indent lineEnding).1 v h 0 true
  rw [h1, h2]
  rfl

end
end
end JustJson
