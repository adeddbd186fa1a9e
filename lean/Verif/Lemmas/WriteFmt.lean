import Verif.Lemmas.Write
import Verif.Lemmas.Calls
import Verif.Spec.WriteFmt
/-! # The calls a writer with a `write_fmt` of its own gets -/

namespace JustJson
open Spec

set_option linter.unusedSectionVars false

section
variable [Arch]

/-! ## Runs -/

section
variable (G : FmtWriter)

theorem makeFmtCalls_append (w : G.W) (a b : List FCall) :
    makeFmtCalls G w (a ++ b) = match makeFmtCalls G w a with
      | .ok (w', true) => makeFmtCalls G w' b
      | .ok (w', false) => .ok (w', false)
      | .panic p => .panic p := by
  induction a generalizing w with
  | nil => rfl
  | cons c a ih =>
    cases c with
    | str s =>
      rw [List.cons_append, makeFmtCalls, makeFmtCalls]
      cases h : G.writeStr w s with
      | mk w' o =>
        cases o with
        | true => exact ih w'
        | false => rfl
    | fmt s =>
      rw [List.cons_append, makeFmtCalls, makeFmtCalls]
      cases h : G.writeFmt w s with
      | panic p => rfl
      | ok q =>
        obtain ⟨w', o⟩ := q
        cases o with
        | true => exact ih w'
        | false => rfl

theorem makeFmtCalls_strs (w : G.W) (ss : List Str) :
    makeFmtCalls G w (ss.map .str) = .ok (makeCalls G.toWriter w (ss.map .str)) := by
  induction ss generalizing w with
  | nil => rfl
  | cons s ss ih =>
    rw [List.map_cons, List.map_cons, makeFmtCalls, makeCalls, WCall.make]
    cases h : G.writeStr w s with
    | mk w' o =>
      cases o with
      | true => exact ih w'
      | false => rfl

end

/-- `m` makes the calls `cs`. -/
def FRun (G : FmtWriter) (m : WM G.toWriter Unit) (l : Nat) (b : Bool) (cs : List FCall) (l' : Nat) (b' : Bool) : Prop :=
  ∀ w, match makeFmtCalls G w cs with
    | .ok (w', true) => m ⟨w, l, b⟩ = .ok () ⟨w', l', b'⟩
    | .ok (w', false) => ∃ l2 b2, m ⟨w, l, b⟩ = .err () ⟨w', l2, b2⟩
    | .panic p => m ⟨w, l, b⟩ = .panic p

section
variable {G : FmtWriter}

theorem FRun.bind {m m' : WM G.toWriter Unit} {l l1 l2 : Nat} {b b1 b2 : Bool} {t t' : List FCall} (h : FRun G m l b t l1 b1)
    (h' : FRun G m' l1 b1 t' l2 b2) : FRun G (m >>= fun _ => m') l b (t ++ t') l2 b2 := by
  intro w
  have h1 := h w
  rw [makeFmtCalls_append]
  cases hm : makeFmtCalls G w t with
  | panic p =>
    rw [hm] at h1
    show M.bind m (fun _ => m') _ = .panic p
    unfold M.bind
    rw [show m ⟨w, l, b⟩ = .panic p from h1]
  | ok q =>
    obtain ⟨w1, o⟩ := q
    rw [hm] at h1
    cases o with
    | true =>
      have e : (m >>= fun _ => m') ⟨w, l, b⟩ = m' ⟨w1, l1, b1⟩ := by
        show M.bind m (fun _ => m') _ = _
        unfold M.bind
        rw [show m ⟨w, l, b⟩ = .ok () ⟨w1, l1, b1⟩ from h1]
      simp only []
      rw [e]
      exact h' w1
    | false =>
      obtain ⟨l3, b3, h1⟩ := h1
      refine ⟨l3, b3, ?_⟩
      show M.bind m (fun _ => m') _ = _
      unfold M.bind
      rw [h1]

theorem FRun.tr {m : WM G.toWriter Unit} {l l' : Nat} {b b' : Bool} {t t' : List FCall} (h : FRun G m l b t l' b') (e : t = t') :
    FRun G m l b t' l' b' := e ▸ h

/-- calls of `write_str` only -/
theorem FRun.of {m : WM G.toWriter Unit} {l l' : Nat} {b b' : Bool} (ss : List Str)
    (h : WRun G.toWriter m l b ⟨ss.map .str, none⟩ l' b') : FRun G m l b (ss.map .str) l' b' := by
  intro w
  have := h w
  rw [makeFmtCalls_strs]
  cases hm : makeCalls G.toWriter w (ss.map .str) with
  | mk w' o =>
    simp only [] at this
    rw [hm] at this
    cases o with
    | true => exact this
    | false => exact this

theorem FRun.pure (l : Nat) (b : Bool) : FRun G (M.pure ()) l b [] l b := fun _ => rfl

theorem FRun.fmt (a : FmtArgs) (l : Nat) (b : Bool) : FRun G (fFmt G a) l b [.fmt a] l b := by
  intro w
  unfold fFmt
  rw [makeFmtCalls]
  cases h : G.writeFmt w a with
  | panic p => rfl
  | ok q =>
    obtain ⟨w', o⟩ := q
    cases o with
    | true => rfl
    | false => exact ⟨l, b, rfl⟩

variable (pretty : Bool) (indent lineEnding : Str)

/-- calls for the indentation -/
def indF (l : Nat) (b : Bool) : List FCall := if pretty && b then List.replicate l (.str indent) else []

theorem FRun.prologue (l : Nat) (b : Bool) :
    FRun G (wPrologue G.toWriter pretty indent) l b (indF pretty indent l b) l (b && !pretty) := by
  have h := WRun.prologue (F := G.toWriter) pretty indent l b
  unfold indTr at h
  unfold indF
  split at h
  · next hc =>
    rw [if_pos hc]
    have := FRun.of (List.replicate l indent) (by rw [List.map_replicate]; exact h)
    rw [List.map_replicate] at this
    exact this
  · next hc =>
    rw [if_neg hc]
    exact FRun.of [] h

theorem FRun.str (s : Str) (l : Nat) (b : Bool) : FRun G (wStr G.toWriter s) l b [.str s] l b :=
  FRun.of [s] (WRun.str s l b)

theorem FRun.write (s : Str) (l : Nat) (b : Bool) :
    FRun G (wWrite G.toWriter pretty indent s) l b (indF pretty indent l b ++ [.str s]) l (b && !pretty) :=
  (FRun.prologue pretty indent l b).bind (FRun.str s l _)

theorem FRun.modify (f : WState G.W → WState G.W) (l l' : Nat) (b b' : Bool) (h : ∀ w, f ⟨w, l, b⟩ = ⟨w, l', b'⟩) :
    FRun G (M.modify f) l b [] l' b' := FRun.of [] (WRun.modify f l l' b b' h)

/-- calls for a line ending -/
def nlF (l : Nat) (b : Bool) : List FCall := if pretty then indF pretty indent l b ++ [.str lineEnding] else []

theorem FRun.newLine (l : Nat) (b : Bool) :
    FRun G (wNewLine G.toWriter pretty indent lineEnding) l b (nlF pretty indent lineEnding l b) l (b || pretty) := by
  unfold wNewLine nlF
  cases pretty with
  | false => simpa using FRun.pure l b
  | true =>
    simp only [if_true]
    have := (FRun.write (G := G) true indent lineEnding l b).bind (FRun.modify (G := G) (fun st => { st with isAtLineStart := true }) l l _ (b || true)
      (fun w => by simp))
    simpa using this

theorem FRun.writeJson (s : JsonString) (l : Nat) (b : Bool) :
    FRun G (fWriteJson G pretty indent s) l b (indF pretty indent l b ++ [.fmt ⟨['"'], s, ['"']⟩]) l (b && !pretty) :=
  (FRun.prologue pretty indent l b).bind (FRun.fmt _ l _)

theorem FRun.begin (s : Str) (l : Nat) (b : Bool) :
    FRun G (wBegin G.toWriter pretty indent s) l b (indF pretty indent l b ++ [.str s]) (l + 1) (b && !pretty) := by
  have := (FRun.write (G := G) pretty indent s l b).bind (FRun.modify (G := G) (fun st => { st with level := st.level + 1 }) l (l + 1) _ _ (fun _ => rfl))
  exact this.tr (by simp)

theorem FRun.end (s : Str) (l : Nat) (b : Bool) :
    FRun G (wEnd G.toWriter pretty indent s) (l + 1) b (indF pretty indent l b ++ [.str s]) l (b && !pretty) := by
  have := (FRun.modify (G := G) (fun st => { st with level := st.level - 1 }) (l + 1) l b b (fun _ => rfl)).bind
    (FRun.write (G := G) pretty indent s l b)
  exact this

mutual
/-- calls for a value -/
def valueF (l : Nat) (b : Bool) : Value → List FCall
  | .string s => indF pretty indent l b ++ [.fmt ⟨['"'], s, ['"']⟩]
  | .number n => indF pretty indent l b ++ [.str n.sourceStr]
  | .boolean t => indF pretty indent l b ++ [.str (if t then ['t', 'r', 'u', 'e'] else ['f', 'a', 'l', 's', 'e'])]
  | .null => indF pretty indent l b ++ [.str ['n', 'u', 'l', 'l']]
  | .object [] => indF pretty indent l b ++ [.str ['{'], .str ['}']]
  | .object (e :: es) =>
    indF pretty indent l b ++ [.str ['{']] ++ nlF pretty indent lineEnding (l + 1) (b && !pretty)
      ++ (entriesF (l + 1) (b || pretty) (e :: es) ++ (indF pretty indent l (b || pretty) ++ [.str ['}']]))
  | .array [] => indF pretty indent l b ++ [.str ['['], .str [']']]
  | .array (v :: vs) =>
    indF pretty indent l b ++ [.str ['[']] ++ nlF pretty indent lineEnding (l + 1) (b && !pretty)
      ++ (elemsF (l + 1) (b || pretty) (v :: vs) ++ (indF pretty indent l (b || pretty) ++ [.str [']']]))
/-- for entries -/
def entriesF (l : Nat) (b : Bool) : List (JsonString × Value) → List FCall
  | [] => []
  | (k, v) :: es =>
    (indF pretty indent l b ++ [.fmt ⟨['"'], k, ['"']⟩]) ++ ([.str (if pretty then [':', ' '] else [':'])]
      ++ (valueF l (b && !pretty) v
        ++ (((if es.isEmpty then [] else [.str [',']]) ++ (if pretty then [.str lineEnding] else [])) ++ entriesF l b es)))
/-- for elements -/
def elemsF (l : Nat) (b : Bool) : List Value → List FCall
  | [] => []
  | v :: vs =>
    valueF l b v
      ++ (((if vs.isEmpty then [] else [.str [',']]) ++ (if pretty then [.str lineEnding] else [])) ++ elemsF l b vs)
end

theorem indF_off (l : Nat) (b : Bool) : indF pretty indent l (b && !pretty) = [] := by
  cases pretty <;> cases b <;> rfl

theorem nlF_off (l : Nat) (b : Bool) : nlF pretty indent lineEnding l (b && !pretty) = if pretty then [.str lineEnding] else [] := by
  cases pretty <;> cases b <;> rfl

theorem FRun.sep (c : Bool) (l : Nat) (b : Bool) :
    FRun G ((if c = true then wWrite G.toWriter pretty indent [','] else M.pure ()) >>= fun _ => wNewLine G.toWriter pretty indent lineEnding) l (b && !pretty)
      ((if c then [.str [',']] else []) ++ (if pretty then [.str lineEnding] else [])) l (b || pretty) := by
  have hn := FRun.newLine (G := G) pretty indent lineEnding l (b && !pretty)
  rw [nlF_off, off_on] at hn
  cases c with
  | true =>
    have hw := FRun.write (G := G) pretty indent [','] l (b && !pretty)
    rw [indF_off, off_off] at hw
    exact hw.bind hn
  | false => exact (FRun.pure l _).bind hn

theorem fmtEntries_cons (len i : Nat) (k : JsonString) (v : Value) (es : Object) :
    fmtEntries G pretty indent lineEnding len i ((k, v) :: es) =
      (fWriteJson G pretty indent k >>= fun _ => wWrite G.toWriter pretty indent (if pretty then [':', ' '] else [':']) >>= fun _ =>
        fmtValue G pretty indent lineEnding v >>= fun _ =>
          ((if i ≠ len - 1 then wWrite G.toWriter pretty indent [','] else M.pure ()) >>= fun _ => wNewLine G.toWriter pretty indent lineEnding) >>= fun _ =>
            fmtEntries G pretty indent lineEnding len (i + 1) es) := by
  rw [fmtEntries]
  by_cases h : i ≠ len - 1
  · simp only [if_pos h]
    congr 1; funext _; congr 1; funext _; congr 1; funext _; funext s
    show M.bind _ (fun _ => M.bind _ fun _ => _) s = M.bind (M.bind _ fun _ => _) (fun _ => _) s
    unfold M.bind
    cases wWrite G.toWriter pretty indent [','] s <;> rfl
  · simp only [if_neg h]
    rfl

theorem fmtValues_cons (len i : Nat) (v : Value) (es : List Value) :
    fmtValues G pretty indent lineEnding len i (v :: es) =
      (fmtValue G pretty indent lineEnding v >>= fun _ =>
          ((if i ≠ len - 1 then wWrite G.toWriter pretty indent [','] else M.pure ()) >>= fun _ => wNewLine G.toWriter pretty indent lineEnding) >>= fun _ =>
            fmtValues G pretty indent lineEnding len (i + 1) es) := by
  rw [fmtValues]
  by_cases h : i ≠ len - 1
  · simp only [if_pos h]
    congr 1; funext _; funext s
    show M.bind _ (fun _ => M.bind _ fun _ => _) s = M.bind (M.bind _ fun _ => _) (fun _ => _) s
    unfold M.bind
    cases wWrite G.toWriter pretty indent [','] s <;> rfl
  · simp only [if_neg h]
    rfl

theorem FRun.sep' {α : Type} (es : List α) (len i l : Nat) (b : Bool) (hb : (b || pretty) = b) (hi : i + (es.length + 1) = len) :
    FRun G ((if i ≠ len - 1 then wWrite G.toWriter pretty indent [','] else M.pure ()) >>= fun _ => wNewLine G.toWriter pretty indent lineEnding) l (b && !pretty)
        ((if es.isEmpty then [] else [.str [',']]) ++ (if pretty then [.str lineEnding] else [])) l b := by
  have hs := FRun.sep (G := G) pretty indent lineEnding (!es.isEmpty) l b
  rw [hb] at hs
  have hc : (i ≠ len - 1) ↔ (!es.isEmpty) = true := by
    cases es with
    | nil => simp at hi ⊢; omega
    | cons e es => simp at hi ⊢; omega
  have e1 : (if i ≠ len - 1 then wWrite G.toWriter pretty indent [','] else M.pure () : WM G.toWriter Unit) = (if (!es.isEmpty) = true then wWrite G.toWriter pretty indent [','] else M.pure ()) := by
    by_cases h : i ≠ len - 1
    · rw [if_pos h, if_pos (hc.mp h)]
    · rw [if_neg h, if_neg (fun h' => h (hc.mpr h'))]
  rw [e1]
  have e2 : (if es.isEmpty then [] else [FCall.str [',']]) = if (!es.isEmpty) then [FCall.str [',']] else [] := by cases es <;> rfl
  rw [e2]
  exact hs

theorem fmt_assoc (m m1 m2 : WM G.toWriter Unit) :
    (m >>= fun _ => m1 >>= fun _ => m2) = ((m >>= fun _ => m1) >>= fun _ => m2) := by
  funext s
  show M.bind _ (fun _ => M.bind _ fun _ => _) s = M.bind (M.bind _ fun _ => _) (fun _ => _) s
  unfold M.bind
  cases m s <;> rfl

theorem FRun.value :
    (∀ (v : Value) l b, FRun G (fmtValue G pretty indent lineEnding v) l b (valueF pretty indent lineEnding l b v) l (b && !pretty))
    ∧ (∀ (es : Object) len i l b, (b || pretty) = b → i + es.length = len →
        FRun G (fmtEntries G pretty indent lineEnding len i es) l b (entriesF pretty indent lineEnding l b es) l b)
    ∧ (∀ (vs : List Value) len i l b, (b || pretty) = b → i + vs.length = len →
        FRun G (fmtValues G pretty indent lineEnding len i vs) l b (elemsF pretty indent lineEnding l b vs) l b) := by
  apply Value.induct
  · intro l b; rw [fmtValue, valueF]; exact FRun.write pretty indent _ l b
  · intro t l b; rw [fmtValue, valueF]; exact FRun.write pretty indent _ l b
  · intro n l b; rw [fmtValue, valueF]; exact FRun.write pretty indent _ l b
  · intro s l b; rw [fmtValue, valueF]; exact FRun.writeJson pretty indent s l b
  · intro es ih l b
    cases es with
    | nil =>
      have he := FRun.end (G := G) pretty indent ['}'] l (b && !pretty)
      rw [indF_off, off_off] at he
      have := (FRun.begin (G := G) pretty indent ['{'] l b).bind ((FRun.pure (l + 1) (b && !pretty)).bind he)
      rw [fmtValue]
      exact this.tr (by simp [valueF])
    | cons e es =>
      have he := FRun.end (G := G) pretty indent ['}'] l (b || pretty)
      rw [on_off] at he
      have hn := FRun.newLine (G := G) pretty indent lineEnding (l + 1) (b && !pretty)
      rw [off_on] at hn
      have hb := ih (e :: es).length 0 (l + 1) (b || pretty) (on_on pretty b) (Nat.zero_add _)
      have := (FRun.begin (G := G) pretty indent ['{'] l b).bind (hn.bind (hb.bind he))
      rw [fmtValue]
      refine this.tr ?_
      simp [valueF]
  · intro es ih l b
    cases es with
    | nil =>
      have he := FRun.end (G := G) pretty indent [']'] l (b && !pretty)
      rw [indF_off, off_off] at he
      have := (FRun.begin (G := G) pretty indent ['['] l b).bind ((FRun.pure (l + 1) (b && !pretty)).bind he)
      rw [fmtValue]
      exact this.tr (by simp [valueF])
    | cons e es =>
      have he := FRun.end (G := G) pretty indent [']'] l (b || pretty)
      rw [on_off] at he
      have hn := FRun.newLine (G := G) pretty indent lineEnding (l + 1) (b && !pretty)
      rw [off_on] at hn
      have hb := ih (e :: es).length 0 (l + 1) (b || pretty) (on_on pretty b) (Nat.zero_add _)
      have := (FRun.begin (G := G) pretty indent ['['] l b).bind (hn.bind (hb.bind he))
      rw [fmtValue]
      refine this.tr ?_
      simp [valueF]
  · intro len i l b hb hi
    exact FRun.pure l b
  · intro k v es ihv ih len i l b hb hi
    rw [fmtEntries_cons, entriesF]
    have hke := FRun.write (G := G) pretty indent (if pretty then [':', ' '] else [':']) l (b && !pretty)
    rw [indF_off, off_off] at hke
    have hv := ihv l (b && !pretty)
    rw [off_off] at hv
    exact (FRun.writeJson pretty indent k l b).bind (hke.bind (hv.bind ((FRun.sep' pretty indent lineEnding es len i l b hb hi).bind
      (ih len (i + 1) l b hb (by simp at hi; omega)))))
  · intro len i l b hb hi
    exact FRun.pure l b
  · intro v es ihv ih len i l b hb hi
    rw [fmtValues_cons, elemsF]
    exact (ihv l b).bind ((FRun.sep' pretty indent lineEnding es len i l b hb hi).bind
      (ih len (i + 1) l b hb (by simp at hi; omega)))

theorem fmtJson_result (v : Value) (w : G.W) :
    v.fmtJson G pretty indent lineEnding w = makeFmtCalls G w (valueF pretty indent lineEnding 0 true v) := by
  have h := (FRun.value (G := G) pretty indent lineEnding).1 v 0 true w
  unfold Value.fmtJson
  cases hm : makeFmtCalls G w (valueF pretty indent lineEnding 0 true v) with
  | panic p =>
    rw [hm] at h
    rw [show fmtValue G pretty indent lineEnding v ⟨w, 0, true⟩ = .panic p from h]
  | ok q =>
    obtain ⟨w', o⟩ := q
    rw [hm] at h
    cases o with
    | true =>
      rw [show fmtValue G pretty indent lineEnding v ⟨w, 0, true⟩ = .ok () ⟨w', 0, _⟩ from h]
    | false =>
      obtain ⟨l, b, h⟩ := h
      rw [h]

end

/-! ## The calls of writers with the provided method -/

section
variable {body : JsonString → Str}

theorem plain_series (cs : List FCall) (c : FCall) : (c :: cs).flatMap (FCall.plain body) = c.plain body ++ cs.flatMap (FCall.plain body) := rfl

theorem compact_plain (b : Bool) :
    (∀ (v : Value) l, (valueF false [] [] l b v).flatMap (FCall.plain body) = compactCalls body v)
    ∧ (∀ (es : Object) l, (entriesF false [] [] l b es).flatMap (FCall.plain body) = seriesOf [.str [',']] (compactEntryCalls body es))
    ∧ (∀ (vs : List Value) l, (elemsF false [] [] l b vs).flatMap (FCall.plain body) = seriesOf [.str [',']] (compactElemCalls body vs)) := by
  have hb : (b && !false) = b := by cases b <;> rfl
  have hb' : (b || false) = b := by cases b <;> rfl
  apply Value.induct
  · intro l; rw [valueF, compactCalls]; rfl
  · intro t l; rw [valueF, compactCalls]; cases t <;> rfl
  · intro n l; rw [valueF, compactCalls]; rfl
  · intro s l; rw [valueF, compactCalls]; simp [indF, FCall.plain, literalCalls]
  · intro es ih l
    cases es with
    | nil => rw [valueF, compactCalls]; rfl
    | cons e es =>
      have h := ih (l + 1)
      rw [valueF, compactCalls, hb', hb]
      simp only [List.flatMap_append]
      rw [h]
      simp [indF, nlF, FCall.plain]
  · intro es ih l
    cases es with
    | nil => rw [valueF, compactCalls]; rfl
    | cons e es =>
      have h := ih (l + 1)
      rw [valueF, compactCalls, hb', hb]
      simp only [List.flatMap_append]
      rw [h]
      simp [indF, nlF, FCall.plain]
  · intro l; rfl
  · intro k v es ihv ih l
    have hv := ihv l
    have he := ih l
    rw [entriesF, hb]
    simp only [List.flatMap_append]
    rw [hv, he]
    cases es with
    | nil => simp [compactEntryCalls, seriesOf, indF, FCall.plain, literalCalls]
    | cons e es => obtain ⟨k', v'⟩ := e; simp [compactEntryCalls, seriesOf, indF, FCall.plain, literalCalls]
  · intro l; rfl
  · intro v es ihv ih l
    have hv := ihv l
    have he := ih l
    rw [elemsF]
    simp only [List.flatMap_append]
    rw [hv, he]
    cases es with
    | nil => simp [compactElemCalls, seriesOf]
    | cons e es => simp [compactElemCalls, seriesOf, FCall.plain]

theorem plain_replicate (n : Nat) (s : Str) : (List.replicate n (FCall.str s)).flatMap (FCall.plain body) = List.replicate n (.str s) := by
  induction n with
  | zero => rfl
  | succ n ih => rw [List.replicate_succ, List.replicate_succ, plain_series, ih]; rfl

theorem pretty_plain (indent lineEnding : Str) :
    (∀ (v : Value) l b, (valueF true indent lineEnding l b v).flatMap (FCall.plain body)
        = (if b then List.replicate l (.str indent) else []) ++ prettyCalls body indent lineEnding l v)
    ∧ (∀ (es : Object) l, (entriesF true indent lineEnding l true es).flatMap (FCall.plain body)
        = seriesOf [.str [','], .str lineEnding] (prettyEntryCalls body indent lineEnding l es)
            ++ (if es.isEmpty then [] else [.str lineEnding]))
    ∧ (∀ (vs : List Value) l, (elemsF true indent lineEnding l true vs).flatMap (FCall.plain body)
        = seriesOf [.str [','], .str lineEnding] (prettyElemCalls body indent lineEnding l vs)
            ++ (if vs.isEmpty then [] else [.str lineEnding])) := by
  have hi : ∀ l b, (indF true indent l b).flatMap (FCall.plain body) = if b then List.replicate l (.str indent) else [] := by
    intro l b
    cases b with
    | true => exact plain_replicate l indent
    | false => rfl
  apply Value.induct
  · intro l b; rw [valueF, prettyCalls, List.flatMap_append, hi]; rfl
  · intro t l b; rw [valueF, prettyCalls, List.flatMap_append, hi]; cases t <;> rfl
  · intro n l b; rw [valueF, prettyCalls, List.flatMap_append, hi]; rfl
  · intro s l b; rw [valueF, prettyCalls, List.flatMap_append, hi]; simp [FCall.plain, literalCalls]
  · intro es ih l b
    cases es with
    | nil => rw [valueF, prettyCalls, List.flatMap_append, hi]; rfl
    | cons e es =>
      have h := ih (l + 1)
      rw [valueF, prettyCalls, Bool.or_true]
      simp only [List.flatMap_append]
      rw [h, hi, hi]
      simp [nlF, indF, FCall.plain]
  · intro es ih l b
    cases es with
    | nil => rw [valueF, prettyCalls, List.flatMap_append, hi]; rfl
    | cons e es =>
      have h := ih (l + 1)
      rw [valueF, prettyCalls, Bool.or_true]
      simp only [List.flatMap_append]
      rw [h, hi, hi]
      simp [nlF, indF, FCall.plain]
  · intro l; rfl
  · intro k v es ihv ih l
    have hv := ihv l false
    have he := ih l
    rw [entriesF, show (true && !true) = false from rfl]
    simp only [List.flatMap_append]
    rw [hv, he, hi]
    cases es with
    | nil => simp [prettyEntryCalls, seriesOf, FCall.plain, literalCalls]
    | cons e es => obtain ⟨k', v'⟩ := e; simp [prettyEntryCalls, seriesOf, FCall.plain, literalCalls]
  · intro l; rfl
  · intro v es ihv ih l
    have hv := ihv l true
    have he := ih l
    rw [elemsF]
    simp only [List.flatMap_append]
    rw [hv, he]
    cases es with
    | nil => simp [prettyElemCalls, seriesOf, FCall.plain]
    | cons e es => simp [prettyElemCalls, seriesOf, FCall.plain]

end

/-! ## The provided method -/

section
variable (F : Writer)

/-- the same but for the level and the flag -/
def relevel (l : Nat) (b : Bool) : Out (WState F.W) Unit Unit → Out (WState F.W) Unit Unit
  | .ok _ st => .ok () ⟨st.writer, l, b⟩
  | .err _ st => .err () ⟨st.writer, l, b⟩
  | .panic p => .panic p

/-- does not depend on, nor changes, the level and the flag -/
def Flat (m : WM F Unit) : Prop := ∀ w l b l' b', m ⟨w, l, b⟩ = relevel F l b (m ⟨w, l', b'⟩)

variable {F}

theorem Flat.bind {m m' : WM F Unit} (h : Flat F m) (h' : Flat F m') : Flat F (m >>= fun _ => m') := by
  intro w l b l' b'
  show M.bind m (fun _ => m') _ = relevel F l b (M.bind m (fun _ => m') _)
  unfold M.bind
  have h0 := h w l' b' l' b'
  rw [h w l b l' b']
  cases hm : m ⟨w, l', b'⟩ with
  | panic p => rfl
  | err e st => rfl
  | ok u st =>
    obtain ⟨w1, l1, b1⟩ := st
    exact h' w1 l b l1 b1

theorem Flat.str (s : Str) : Flat F (wStr F s) := by
  intro w l b l' b'
  unfold wStr
  show (match F.writeStr w s with | (w, true) => _ | (w, false) => _) = relevel F l b (match F.writeStr w s with | (w, true) => _ | (w, false) => _)
  cases F.writeStr w s with
  | mk w' o => cases o <;> rfl

theorem Flat.char (c : Char) : Flat F (wChar F c) := by
  intro w l b l' b'
  unfold wChar
  show (match F.writeChar w c with | (w, true) => _ | (w, false) => _) = relevel F l b (match F.writeChar w c with | (w, true) => _ | (w, false) => _)
  cases F.writeChar w c with
  | mk w' o => cases o <;> rfl

theorem Flat.asJson (n : Nat) (a : AsJson) : Flat F (wAsJson F n a) := by
  induction n generalizing a with
  | zero => intro w l b l' b'; rfl
  | succ n ih =>
    rw [wAsJson]
    cases a.next with
    | panic p => intro w l b l' b'; rfl
    | ok o =>
      cases o with
      | none => intro w l b l' b'; rfl
      | some q => exact (Flat.char q.1).bind (ih q.2)

theorem Flat.fmt (a : FmtArgs) : Flat F (fmtDefault F a) :=
  (Flat.str _).bind ((Flat.asJson _ _).bind (Flat.str _))

theorem fFmt_default (a : FmtArgs) : fFmt F.withDefault a = fmtDefault F a := by
  funext st
  obtain ⟨w, l, b⟩ := st
  have h := Flat.fmt (F := F) a w l b 0 false
  rw [h]
  unfold fFmt
  dsimp only []
  cases fmtDefault F a ⟨w, 0, false⟩ with
  | ok u st => rfl
  | err e st => rfl
  | panic p => rfl

theorem fWriteJson_default (pretty : Bool) (indent : Str) (s : JsonString) :
    fWriteJson F.withDefault pretty indent s = wWriteJson F pretty indent s := by
  unfold fWriteJson wWriteJson
  rw [fFmt_default]
  rfl

theorem fmtValue_default (pretty : Bool) (indent lineEnding : Str) :
    (∀ v : Value, fmtValue F.withDefault pretty indent lineEnding v = writeValue F pretty indent lineEnding v)
    ∧ (∀ (es : Object) len i, fmtEntries F.withDefault pretty indent lineEnding len i es = writeEntries F pretty indent lineEnding len i es)
    ∧ (∀ (vs : List Value) len i, fmtValues F.withDefault pretty indent lineEnding len i vs = writeValues F pretty indent lineEnding len i vs) := by
  apply Value.induct
  · rw [fmtValue, writeValue]
  · intro t; rw [fmtValue, writeValue]
  · intro n; rw [fmtValue, writeValue]
  · intro s; rw [fmtValue, writeValue, fWriteJson_default]
  · intro es ih; rw [fmtValue, writeValue, ih]
  · intro vs ih; rw [fmtValue, writeValue, ih]
  · intro len i; rfl
  · intro k v es ihv ih len i
    rw [fmtEntries, writeEntries, fWriteJson_default, ihv, ih]
  · intro len i; rfl
  · intro v es ihv ih len i
    rw [fmtValues, writeValues, ihv, ih]

theorem fmtJson_default (pretty : Bool) (indent lineEnding : Str) (v : Value) (w : F.W) :
    v.fmtJson F.withDefault pretty indent lineEnding w = v.writeJson F pretty indent lineEnding w := by
  unfold Value.fmtJson Value.writeJson
  rw [(fmtValue_default pretty indent lineEnding).1 v]
  cases writeValue F pretty indent lineEnding v ⟨w, 0, true⟩ <;> rfl

end

end
end JustJson
