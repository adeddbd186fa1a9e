import Verif.Lemmas.Place
import Verif.Lemmas.Machine
import Verif.Lemmas.Window
import Verif.Spec.Local
/-! # The machine on the way to a place, and at the place -/

namespace JustJson
open Spec

set_option linter.unusedSectionVars false

section
variable [Arch] {g : Bool} {src : List UInt8} {cfg : ParseConfig}

/-- A value may come next. -/
def WantsValue (w : Want) (st : List Nest) : Prop := w = .value ∨ ∃ f a s, w = .element f ∧ st = .array a :: s

/-- There is room for this depth. -/
def RoomFor (cfg : ParseConfig) (n : Nat) : Prop := ∀ m, cfg.recursionLimit = some m → n ≤ m

theorem RoomFor.mono {m n : Nat} (h : RoomFor cfg n) (hm : m ≤ n) : RoomFor cfg m := fun x hx => Nat.le_trans hm (h x hx)

theorem RoomFor.open {st : List Nest} {n : Nat} (h : RoomFor cfg n) (hn : st.length < n) : crowded cfg st = false := by
  unfold crowded
  cases hl : cfg.recursionLimit with
  | none => rfl
  | some m =>
    have := h m hl
    simp only [decide_eq_false_iff_not]
    omega

/-- one lexeme -/
theorem lex_go {off : Nat} {w r : List UInt8} {l : Lex} {wa wa' : Want} {st st' : List Nest} {o : Nat} (hlim : src.length < LIM) (hw : Ws w)
    (hv : l.Valid) (h : src.drop off = w ++ (l.bytes ++ r)) (hs : l.Stop r) (hn : wa ≠ .separator ∨ st ≠ [])
    (ho : o = off + w.length + l.bytes.length)
    (ht : ∀ x : Scan, x.after = o → (takeToken cfg x wa st l.token).2 = .ok (wa', st')) :
    (machineAt g src cfg wa st off).2 = (machineAt g src cfg wa' st' o).2 := by
  have h1 := nextOrEof_complete (g := g) hw hv h hs hlim
  rw [← ho] at h1
  have h2 := ht ⟨off, off + runLen isWs (src.drop off), .ok l.token, o⟩ rfl
  cases h3 : takeToken cfg ⟨off, off + runLen isWs (src.drop off), .ok l.token, o⟩ wa st l.token with
  | mk l' y =>
    rw [h3] at h2
    subst h2
    rw [at_go h1 hn h3]
    rfl

theorem wants_take {x : Scan} {w : Want} {st : List Nest} {t : Token} (h : WantsValue w st) (ht : t ≠ .arrayEnd) :
    ∃ off, takeToken cfg x w st t = takeValue cfg st off x.after t := by
  rcases h with rfl | ⟨f, a, s, rfl, rfl⟩
  · exact ⟨_, rfl⟩
  · cases t with
    | arrayEnd => exact absurd rfl ht
    | _ => exact ⟨_, rfl⟩

theorem wants_ne {w : Want} {st : List Nest} (h : WantsValue w st) : w ≠ .separator ∨ st ≠ [] := by
  rcases h with rfl | ⟨f, a, s, rfl, rfl⟩ <;> exact .inl nofun

theorem scalar_next {st : List Nest} {off after : Nat} {e : Event} (h : st ≠ []) :
    (takeScalar cfg st off after e).2 = .ok (.separator, st) := by
  unfold takeScalar
  cases st with
  | nil => exact absurd rfl h
  | cons a l => rfl

/-- a value without parts, within a container -/
theorem lex_scalar {off : Nat} {w r : List UInt8} {l : Lex} {wa : Want} {st : List Nest} (hlim : src.length < LIM) (hw : Ws w)
    (hv : l.Valid) (h : src.drop off = w ++ (l.bytes ++ r)) (hs : l.Stop r) (hn : WantsValue wa st) (hst : st ≠ [])
    (hl : l.token ≠ .arrayEnd) (hsc : ∀ off after, ∃ e, takeValue cfg st off after l.token = takeScalar cfg st off after e) :
    (machineAt g src cfg wa st off).2 = (machineAt g src cfg .separator st (off + w.length + l.bytes.length)).2 := by
  refine lex_go hlim hw hv h hs (wants_ne hn) rfl fun x _ => ?_
  obtain ⟨o, e⟩ := wants_take (cfg := cfg) (x := x) hn hl
  obtain ⟨ev, e2⟩ := hsc o x.after
  rw [e, e2]
  exact scalar_next hst

/-- a key and its colon -/
theorem key_go {off c : Nat} {w w1 r : List UInt8} {k : List Item} {f : Bool} {st : List Nest} (hlim : src.length < LIM) (hw : Ws w)
    (hk : ItemsValid k) (hw1 : Ws w1) (h : src.drop off = w ++ (strBytes k ++ (w1 ++ 0x3A :: r))) :
    ∃ o, o = off + w.length + (strBytes k).length + w1.length + 1 ∧ src.drop o = r
      ∧ (machineAt g src cfg (.key f) (.object c :: st) off).2 = (machineAt g src cfg .value (.object o :: st) o).2 := by
  have h1 : src.drop (off + w.length + (strBytes k).length) = w1 ++ (Lex.colon.bytes ++ r) := by
    have := drop_step (a := w ++ strBytes k) (r := w1 ++ 0x3A :: r) (by rw [h]; simp)
    rw [List.length_append, ← Nat.add_assoc] at this
    rw [this]; rfl
  refine ⟨_, rfl, ?_, ?_⟩
  · have := drop_step (a := w ++ strBytes k ++ w1 ++ [0x3A]) (r := r) (by rw [h]; simp)
    rw [← this]; congr 1; simp; omega
  · refine (lex_go (wa := .key f) (l := .str k) (wa' := .colon) (st' := .object c :: st) hlim hw hk h trivial (.inl nofun) rfl
      fun _ _ => rfl).trans ?_
    exact lex_go (wa := .colon) (l := .colon) hlim hw1 trivial h1 trivial (.inl nofun) rfl fun x hx => by rw [← hx]; rfl

variable (g src cfg) in
/-- the machine goes over a value within a container -/
def GoesValue (b : List UInt8) (j : Json) : Prop :=
  ∀ (w : Want) (st : List Nest) (off : Nat) (ws r : List UInt8), WantsValue w st → st ≠ [] → src.drop off = ws ++ (b ++ r) → Ws ws →
    StopAfter j r → RoomFor cfg (st.length + j.depth) →
    (machineAt g src cfg w st off).2 = (machineAt g src cfg .separator st (off + ws.length + b.length)).2

variable (g src cfg) in
/-- over the rest of an array -/
def GoesElems (b : List UInt8) (js : List Json) : Prop :=
  ∀ (f : Bool) (a : Nat) (st : List Nest) (off : Nat) (r : List UInt8),
    src.drop off = b ++ 0x5D :: r → RoomFor cfg (st.length + 1 + depthList js) →
    (machineAt g src cfg (.element f) (.array a :: st) off).2 = (machineAt g src cfg .separator st (off + b.length + 1)).2

variable (g src cfg) in
/-- over the rest of an object -/
def GoesMembers (b : List UInt8) (ms : List (List Item × Json)) : Prop :=
  ∀ (f : Bool) (a : Nat) (st : List Nest) (off : Nat) (r : List UInt8),
    src.drop off = b ++ 0x7D :: r → RoomFor cfg (st.length + 1 + depthMembers ms) →
    (machineAt g src cfg (.key f) (.object a :: st) off).2 = (machineAt g src cfg .separator st (off + b.length + 1)).2

theorem drop_at {off : Nat} {a r : List UInt8} {o : Nat} (h : src.drop off = a ++ r) (ho : o = off + a.length) : src.drop o = r := by
  rw [ho]; exact drop_step h

/-- an element and the comma after it -/
theorem elem_comma {off a : Nat} {w b w' r : List UInt8} {j : Json} {f : Bool} {st : List Nest} (hlim : src.length < LIM)
    (ih : GoesValue g src cfg b j) (hw : Ws w) (hw' : Ws w') (h : src.drop off = w ++ (b ++ (w' ++ 0x2C :: r)))
    (hr : RoomFor cfg (st.length + 1 + j.depth)) :
    (machineAt g src cfg (.element f) (.array a :: st) off).2
      = (machineAt g src cfg (.element false) (.array a :: st) (off + w.length + b.length + w'.length + 1)).2 := by
  refine (ih _ _ off w (w' ++ 0x2C :: r) (.inr ⟨f, a, st, rfl, rfl⟩) nofun h hw (stopAfter_of (sep_ws hw' (by unfold Sep; decide)) j) hr).trans ?_
  refine lex_go (l := .comma) (wa := .separator) (r := r) hlim hw' trivial ?_ trivial (.inr nofun) rfl fun _ _ => rfl
  exact drop_at (a := w ++ b) (by rw [h]; simp [Lex.bytes]) (by simp; omega)

/-- an element and the end of the array -/
theorem elem_end {off a : Nat} {w b w' r : List UInt8} {j : Json} {f : Bool} {st : List Nest} (hlim : src.length < LIM)
    (ih : GoesValue g src cfg b j) (hw : Ws w) (hw' : Ws w') (h : src.drop off = w ++ (b ++ (w' ++ 0x5D :: r)))
    (hr : RoomFor cfg (st.length + 1 + j.depth)) :
    (machineAt g src cfg (.element f) (.array a :: st) off).2
      = (machineAt g src cfg .separator st (off + w.length + b.length + w'.length + 1)).2 := by
  refine (ih _ _ off w (w' ++ 0x5D :: r) (.inr ⟨f, a, st, rfl, rfl⟩) nofun h hw (stopAfter_of (sep_ws hw' (by unfold Sep; decide)) j) hr).trans ?_
  refine lex_go (l := .arrC) (wa := .separator) (r := r) hlim hw' trivial ?_ trivial (.inr nofun) rfl fun _ _ => rfl
  exact drop_at (a := w ++ b) (by rw [h]; simp [Lex.bytes]) (by simp; omega)

/-- an entry and the comma after it -/
theorem member_comma {off a : Nat} {w w1 w2 b w' r : List UInt8} {k : List Item} {j : Json} {f : Bool} {st : List Nest} (hlim : src.length < LIM)
    (ih : GoesValue g src cfg b j) (hw : Ws w) (hk : ItemsValid k) (hw1 : Ws w1) (hw2 : Ws w2) (hw' : Ws w')
    (h : src.drop off = w ++ (strBytes k ++ (w1 ++ 0x3A :: (w2 ++ (b ++ (w' ++ 0x2C :: r))))))
    (hr : RoomFor cfg (st.length + 1 + j.depth)) :
    ∃ a', (machineAt g src cfg (.key f) (.object a :: st) off).2
      = (machineAt g src cfg (.key false) (.object a' :: st)
          (off + w.length + (strBytes k).length + w1.length + 1 + w2.length + b.length + w'.length + 1)).2 := by
  obtain ⟨o, ho, hd, e⟩ := key_go (g := g) (cfg := cfg) (f := f) (c := a) (st := st) hlim hw hk hw1 h
  refine ⟨o, ?_⟩
  rw [← ho]
  refine e.trans ((ih _ (.object o :: st) o w2 (w' ++ 0x2C :: r) (.inl rfl) nofun hd hw2 (stopAfter_of (sep_ws hw' (by unfold Sep; decide)) j) hr).trans ?_)
  refine lex_go (l := .comma) (wa := .separator) (r := r) hlim hw' trivial ?_ trivial (.inr nofun) rfl fun _ _ => rfl
  exact drop_at (a := w2 ++ b) (by rw [hd]; simp [Lex.bytes]) (by simp; omega)

/-- an entry and the end of the object -/
theorem member_end {off a : Nat} {w w1 w2 b w' r : List UInt8} {k : List Item} {j : Json} {f : Bool} {st : List Nest} (hlim : src.length < LIM)
    (ih : GoesValue g src cfg b j) (hw : Ws w) (hk : ItemsValid k) (hw1 : Ws w1) (hw2 : Ws w2) (hw' : Ws w')
    (h : src.drop off = w ++ (strBytes k ++ (w1 ++ 0x3A :: (w2 ++ (b ++ (w' ++ 0x7D :: r))))))
    (hr : RoomFor cfg (st.length + 1 + j.depth)) :
    (machineAt g src cfg (.key f) (.object a :: st) off).2
      = (machineAt g src cfg .separator st
          (off + w.length + (strBytes k).length + w1.length + 1 + w2.length + b.length + w'.length + 1)).2 := by
  obtain ⟨o, ho, hd, e⟩ := key_go (g := g) (cfg := cfg) (f := f) (c := a) (st := st) hlim hw hk hw1 h
  rw [← ho]
  refine e.trans ((ih _ (.object o :: st) o w2 (w' ++ 0x7D :: r) (.inl rfl) nofun hd hw2 (stopAfter_of (sep_ws hw' (by unfold Sep; decide)) j) hr).trans ?_)
  refine lex_go (l := .objC) (wa := .separator) (r := r) hlim hw' trivial ?_ trivial (.inr nofun) rfl fun _ _ => rfl
  exact drop_at (a := w2 ++ b) (by rw [hd]; simp [Lex.bytes]) (by simp; omega)

/-- `[` -/
theorem open_array {off : Nat} {ws r : List UInt8} {w : Want} {st : List Nest} (hlim : src.length < LIM) (hw : WantsValue w st)
    (h : src.drop off = ws ++ 0x5B :: r) (hws : Ws ws) (hr : RoomFor cfg (st.length + 1)) :
    (machineAt g src cfg w st off).2
      = (machineAt g src cfg (.element true) (.array (off + ws.length + 1) :: st) (off + ws.length + 1)).2 := by
  refine lex_go (l := .arrO) (r := r) hlim hws trivial (by rw [h]; rfl) trivial (wants_ne hw) rfl fun x hx => ?_
  obtain ⟨o, e⟩ := wants_take (cfg := cfg) (x := x) hw (t := .array) nofun
  rw [show Lex.token .arrO = .array from rfl, e, hx]
  simp [takeValue, hr.open (Nat.lt_succ_self _)]

/-- `{` -/
theorem open_object {off : Nat} {ws r : List UInt8} {w : Want} {st : List Nest} (hlim : src.length < LIM) (hw : WantsValue w st)
    (h : src.drop off = ws ++ 0x7B :: r) (hws : Ws ws) (hr : RoomFor cfg (st.length + 1)) :
    (machineAt g src cfg w st off).2 = (machineAt g src cfg (.key true) (.object 0 :: st) (off + ws.length + 1)).2 := by
  refine lex_go (l := .objO) (r := r) hlim hws trivial (by rw [h]; rfl) trivial (wants_ne hw) rfl fun x hx => ?_
  obtain ⟨o, e⟩ := wants_take (cfg := cfg) (x := x) hw (t := .object) nofun
  rw [show Lex.token .objO = .object from rfl, e, hx]
  simp [takeValue, hr.open (Nat.lt_succ_self _)]

/-- `]` where an element could be -/
theorem close_array {off a : Nat} {ws r : List UInt8} {f : Bool} {st : List Nest} (hlim : src.length < LIM)
    (h : src.drop off = ws ++ 0x5D :: r) (hws : Ws ws) (hf : f = true ∨ cfg.allowTrailingCommas = true) :
    (machineAt g src cfg (.element f) (.array a :: st) off).2 = (machineAt g src cfg .separator st (off + ws.length + 1)).2 := by
  refine lex_go (l := .arrC) (r := r) hlim hws trivial (by rw [h]; rfl) trivial (.inl nofun) rfl fun x hx => ?_
  rcases hf with rfl | hf <;> simp [takeToken, Lex.token, closeArray, *]

/-- `}` where a key could be -/
theorem close_object {off a : Nat} {ws r : List UInt8} {f : Bool} {st : List Nest} (hlim : src.length < LIM)
    (h : src.drop off = ws ++ 0x7D :: r) (hws : Ws ws) (hf : f = true ∨ cfg.allowTrailingCommas = true) :
    (machineAt g src cfg (.key f) (.object a :: st) off).2 = (machineAt g src cfg .separator st (off + ws.length + 1)).2 := by
  refine lex_go (l := .objC) (r := r) hlim hws trivial (by rw [h]; rfl) trivial (.inl nofun) rfl fun x hx => ?_
  rcases hf with rfl | hf <;> simp [takeToken, Lex.token, closeObject, *]

/-- the machine goes over whatever the grammar calls a value -/
theorem goes_value (hlim : src.length < LIM) {b : List UInt8} {j : Json} (h : GValue cfg.allowTrailingCommas b j) :
    GoesValue g src cfg b j := by
  have scal : ∀ (l : Lex) (j : Json), l.Valid → j.depth = 0 → (∀ r, StopAfter j r → l.Stop r) → l.token ≠ .arrayEnd →
      (∀ st off after, ∃ e, takeValue cfg st off after l.token = takeScalar cfg st off after e) → GoesValue g src cfg l.bytes j := by
    intro l j hv _ hs hl hsc w st off ws r hw hst h hws hstop _
    exact lex_scalar hlim hws hv h (hs r hstop) hw hst hl (hsc st)
  have arr : ∀ (b : List UInt8) (js : List Json), (∀ (a : Nat) (st : List Nest) (off : Nat) (r : List UInt8),
      src.drop off = b ++ 0x5D :: r → RoomFor cfg (st.length + 1 + depthList js) →
      (machineAt g src cfg (.element true) (.array a :: st) off).2 = (machineAt g src cfg .separator st (off + b.length + 1)).2) →
      GoesValue g src cfg (0x5B :: (b ++ [0x5D])) (.arr js) := by
    intro b js ih w st off ws r hw hst h hws _ hr
    rw [Json.depth] at hr
    refine (open_array hlim hw (by rw [h]; rfl) hws (hr.mono (by omega))).trans ?_
    rw [ih _ _ _ r (drop_at (a := ws ++ [0x5B]) (by rw [h]; simp) (by simp; omega)) (hr.mono (by omega))]
    congr 2; simp; omega
  have obj : ∀ (b : List UInt8) (ms : List (List Item × Json)), (∀ (a : Nat) (st : List Nest) (off : Nat) (r : List UInt8),
      src.drop off = b ++ 0x7D :: r → RoomFor cfg (st.length + 1 + depthMembers ms) →
      (machineAt g src cfg (.key true) (.object a :: st) off).2 = (machineAt g src cfg .separator st (off + b.length + 1)).2) →
      GoesValue g src cfg (0x7B :: (b ++ [0x7D])) (.obj ms) := by
    intro b ms ih w st off ws r hw hst h hws _ hr
    rw [Json.depth] at hr
    refine (open_object hlim hw (by rw [h]; rfl) hws (hr.mono (by omega))).trans ?_
    rw [ih _ _ _ r (drop_at (a := ws ++ [0x7B]) (by rw [h]; simp) (by simp; omega)) (hr.mono (by omega))]
    congr 2; simp; omega
  refine GValue.rec (motive_1 := fun b j _ => GoesValue g src cfg b j) (motive_2 := fun b js _ => GoesElems g src cfg b js)
    (motive_3 := fun b ms _ => GoesMembers g src cfg b ms) ?_ ?_ ?_ ?_ ?_ ?_ ?_ ?_ ?_ ?_ ?_ ?_ ?_ ?_ ?_ h
  · exact scal .null _ trivial rfl (fun _ _ => trivial) nofun fun _ _ _ => ⟨_, rfl⟩
  · exact scal (.bool true) _ trivial rfl (fun _ _ => trivial) nofun fun _ _ _ => ⟨_, rfl⟩
  · exact scal (.bool false) _ trivial rfl (fun _ _ => trivial) nofun fun _ _ _ => ⟨_, rfl⟩
  · exact fun n hn => scal (.num n) _ hn rfl (fun _ h => h) nofun fun _ _ _ => ⟨_, rfl⟩
  · exact fun k hk => scal (.str k) _ hk rfl (fun _ _ => trivial) nofun fun _ _ _ => ⟨_, rfl⟩
  · exact fun w hw => arr w [] fun a st off r h _ => close_array hlim h hw (.inl rfl)
  · exact fun body js _ ih => arr body js fun a st off r h hr => ih true a st off r h hr
  · exact fun w hw => obj w [] fun a st off r h _ => close_object hlim h hw (.inl rfl)
  · exact fun body ms _ ih => obj body ms fun a st off r h hr => ih true a st off r h hr
  · intro w b w' j hw hb hw' ih f a st off r h hr
    rw [elem_end hlim ih hw hw' (r := r) (by rw [h]; simp) (hr.mono (by simp [depthList]))]
    congr 2; simp; omega
  · intro w b w' w'' j htc hw hb hw' hw'' ih f a st off r h hr
    rw [elem_comma hlim ih hw hw' (r := w'' ++ 0x5D :: r) (by rw [h]; simp) (hr.mono (by simp [depthList])),
      close_array (r := r) hlim (drop_at (a := w ++ b ++ w' ++ [0x2C]) (by rw [h]; simp) (by simp; omega)) hw'' (.inr htc)]
    congr 2; simp; omega
  · intro w b w' rest j js hw hb hw' _ ih ihr f a st off r h hr
    rw [elem_comma hlim ih hw hw' (r := rest ++ 0x5D :: r) (by rw [h]; simp) (hr.mono (by simp [depthList]; omega)),
      ihr _ _ _ _ r (drop_at (a := w ++ b ++ w' ++ [0x2C]) (by rw [h]; simp) (by simp; omega)) (hr.mono (by simp [depthList]; omega))]
    congr 2; simp; omega
  · intro w w1 w2 b w' k j hw hk hw1 hw2 hb hw' ih f a st off r h hr
    rw [member_end hlim ih hw hk hw1 hw2 hw' (r := r) (by rw [h]; simp) (hr.mono (by simp [depthMembers]))]
    congr 2; simp; omega
  · intro w w1 w2 b w' w'' k j htc hw hk hw1 hw2 hb hw' hw'' ih f a st off r h hr
    obtain ⟨a', e⟩ := member_comma (a := a) (f := f) (st := st) hlim ih hw hk hw1 hw2 hw' (r := w'' ++ 0x7D :: r) (by rw [h]; simp)
      (hr.mono (by simp [depthMembers]))
    rw [e, close_object (r := r) hlim (drop_at (a := w ++ strBytes k ++ w1 ++ [0x3A] ++ w2 ++ b ++ w' ++ [0x2C]) (by rw [h]; simp) (by simp; omega)) hw'' (.inr htc)]
    congr 2; simp; omega
  · intro w w1 w2 b w' rest k j ms hw hk hw1 hw2 hb hw' _ ih ihr f a st off r h hr
    obtain ⟨a', e⟩ := member_comma (a := a) (f := f) (st := st) hlim ih hw hk hw1 hw2 hw' (r := rest ++ 0x7D :: r) (by rw [h]; simp)
      (hr.mono (by simp [depthMembers]; omega))
    rw [e, ihr _ _ _ _ r (drop_at (a := w ++ strBytes k ++ w1 ++ [0x3A] ++ w2 ++ b ++ w' ++ [0x2C]) (by rw [h]; simp) (by simp; omega))
      (hr.mono (by simp [depthMembers]; omega))]
    congr 2; simp; omega

/-! ## On the way to a place -/

variable (g src cfg) in
/-- From here the machine comes to where `c` begins, with `d` containers open and a value wanted. -/
def Arrives (w : Want) (st : List Nest) (off : Nat) (c r : List UInt8) (d pos : Nat) : Prop :=
  ∃ w' st' off' ws, (machineAt g src cfg w st off).2 = (machineAt g src cfg w' st' off').2 ∧ WantsValue w' st' ∧ st'.length = d
    ∧ src.drop off' = ws ++ (c ++ r) ∧ Ws ws ∧ off' + ws.length = pos

/-- What follows cannot go on with a number. -/
def SepKeep (post : List UInt8) : Prop := ∀ s : List UInt8, (∀ x, s.head? = some x → Sep x) → ∀ x, (post ++ s).head? = some x → Sep x

theorem sepKeep_ws {w s : List UInt8} {c : UInt8} (hw : Ws w) (hc : Sep c) : SepKeep (w ++ c :: s) := by
  intro t _ x hx
  rw [List.append_assoc, List.cons_append] at hx
  exact sep_ws hw hc x hx

theorem sepKeep_nil : SepKeep [] := fun _ h => h

theorem SepKeep.append {a b : List UInt8} (ha : SepKeep a) (hb : SepKeep b) : SepKeep (a ++ b) := by
  intro s h x hx
  rw [List.append_assoc] at hx
  exact ha _ (hb s h) x hx

theorem elems_place {tc : Bool} {body : List UInt8} {js : List Json} (h : GElems tc body js) : ∀ {i : Nat} {j : Json}, js[i]? = some j →
    ∃ pre b post, body = pre ++ b ++ post ∧ GValue tc b j ∧ SepKeep (post ++ [0x5D])
      ∧ (∀ b' j', Text tc b' j' → GElems tc (pre ++ b' ++ post) (js.set i j'))
      ∧ ∀ (g : Bool) (src : List UInt8) (cfg : ParseConfig) (f : Bool) (a : Nat) (st : List Nest) (off : Nat) (c r : List UInt8),
        cfg.allowTrailingCommas = tc → src.length < LIM → src.drop off = pre ++ (c ++ r) → RoomFor cfg (st.length + 1 + depthList js) →
        Arrives g src cfg (.element f) (.array a :: st) off c r (st.length + 1) (off + pre.length) := by
  intro i j hi
  have here : ∀ (w : List UInt8), Ws w → ∀ (js : List Json) (g : Bool) (src : List UInt8) (cfg : ParseConfig) (f : Bool) (a : Nat) (st : List Nest)
      (off : Nat) (c r : List UInt8),
        cfg.allowTrailingCommas = tc → src.length < LIM → src.drop off = w ++ (c ++ r) → RoomFor cfg (st.length + 1 + depthList js) →
        Arrives g src cfg (.element f) (.array a :: st) off c r (st.length + 1) (off + w.length) := by
    intro w hw js g src cfg f a st off c r _ _ hd _
    exact ⟨_, _, off, w, rfl, .inr ⟨f, a, st, rfl, rfl⟩, rfl, hd, hw, rfl⟩
  match h with
  | .one w b w' j0 hw hb hw' =>
    cases i with
    | succ i => simp at hi
    | zero =>
      simp at hi; subst hi
      refine ⟨w, b, w', rfl, hb, sepKeep_ws hw' (by unfold Sep; decide), ?_, here w hw _⟩
      rintro b' j' ⟨v, c, v', hv, hc, hv', rfl⟩
      have := GElems.one (tc := tc) (w ++ v) c (v' ++ w') j' (ws_append hw hv) hc (ws_append hv' hw')
      simpa using this
  | .trailing w b w' w'' j0 ht hw hb hw' hw'' =>
    cases i with
    | succ i => simp at hi
    | zero =>
      simp at hi; subst hi
      refine ⟨w, b, w' ++ 0x2C :: w'', by simp, hb, ?_, ?_, here w hw _⟩
      · rw [List.append_assoc]; exact sepKeep_ws hw' (by unfold Sep; decide)
      rintro b' j' ⟨v, c, v', hv, hc, hv', rfl⟩
      have := GElems.trailing (tc := tc) (w ++ v) c (v' ++ w') w'' j' ht (ws_append hw hv) hc (ws_append hv' hw') hw''
      simpa using this
  | .cons w b w' rest j0 js hw hb hw' hr =>
    cases i with
    | zero =>
      simp at hi; subst hi
      refine ⟨w, b, w' ++ 0x2C :: rest, by simp, hb, ?_, ?_, here w hw _⟩
      · rw [List.append_assoc]; exact sepKeep_ws hw' (by unfold Sep; decide)
      rintro b' j' ⟨v, c, v', hv, hc, hv', rfl⟩
      have := GElems.cons (tc := tc) (w ++ v) c (v' ++ w') rest j' js (ws_append hw hv) hc (ws_append hv' hw') hr
      simpa using this
    | succ i =>
      obtain ⟨pre, c, post, e, hc, hsep, hs, har⟩ := elems_place hr (i := i) (j := j) (by simpa using hi)
      refine ⟨w ++ b ++ w' ++ 0x2C :: pre, c, post, by rw [e]; simp, hc, hsep, ?_, ?_⟩
      · intro b' j' ht
        have := GElems.cons (tc := tc) w b w' _ j0 _ hw hb hw' (hs b' j' ht)
        simpa using this
      · intro g src cfg f a st off d r htc hlim hd hroom
        subst htc
        obtain ⟨w1, st1, off1, ws, e1, h1, h2, h3, h4, h5⟩ := har g src cfg false a st (off + w.length + b.length + w'.length + 1) d r rfl hlim
          (drop_at (a := w ++ b ++ w' ++ [0x2C]) (by rw [hd]; simp) (by simp; omega)) (hroom.mono (by simp [depthList]; omega))
        refine ⟨w1, st1, off1, ws, ?_, h1, h2, h3, h4, by rw [h5]; simp; omega⟩
        rw [← e1]
        exact elem_comma hlim (goes_value hlim hb) hw hw' (r := pre ++ (d ++ r)) (by rw [hd]; simp) (hroom.mono (by simp [depthList]; omega))

theorem members_place {tc : Bool} {body : List UInt8} {ms : List (List Item × Json)} (h : GMembers tc body ms) :
    ∀ {i : Nat} {k : List Item} {j : Json}, ms[i]? = some (k, j) →
    ∃ pre b post, body = pre ++ b ++ post ∧ GValue tc b j ∧ SepKeep (post ++ [0x7D])
      ∧ (∀ b' j', Text tc b' j' → GMembers tc (pre ++ b' ++ post) (ms.set i (k, j')))
      ∧ ∀ (g : Bool) (src : List UInt8) (cfg : ParseConfig) (f : Bool) (a : Nat) (st : List Nest) (off : Nat) (c r : List UInt8),
        cfg.allowTrailingCommas = tc → src.length < LIM → src.drop off = pre ++ (c ++ r) → RoomFor cfg (st.length + 1 + depthMembers ms) →
        Arrives g src cfg (.key f) (.object a :: st) off c r (st.length + 1) (off + pre.length) := by
  intro i k j hi
  have here : ∀ (w w1 w2 : List UInt8) (k : List Item), Ws w → ItemsValid k → Ws w1 → Ws w2 → ∀ (ms : List (List Item × Json)) (g : Bool)
      (src : List UInt8) (cfg : ParseConfig) (f : Bool) (a : Nat) (st : List Nest) (off : Nat) (c r : List UInt8),
        cfg.allowTrailingCommas = tc → src.length < LIM → src.drop off = w ++ strBytes k ++ w1 ++ 0x3A :: w2 ++ (c ++ r) →
        RoomFor cfg (st.length + 1 + depthMembers ms) →
        Arrives g src cfg (.key f) (.object a :: st) off c r (st.length + 1) (off + (w ++ strBytes k ++ w1 ++ 0x3A :: w2).length) := by
    intro w w1 w2 k hw hk hw1 hw2 ms g src cfg f a st off c r _ hlim hd _
    obtain ⟨o, ho, hd', e⟩ := key_go (g := g) (cfg := cfg) (f := f) (c := a) (st := st) (r := w2 ++ (c ++ r)) hlim hw hk hw1 (by rw [hd]; simp)
    exact ⟨_, _, o, w2, e, .inl rfl, rfl, hd', hw2, by rw [ho]; simp; omega⟩
  match h with
  | .one w w1 w2 b w' k0 j0 hw hk hw1 hw2 hb hw' =>
    cases i with
    | succ i => simp at hi
    | zero =>
      simp at hi; obtain ⟨rfl, rfl⟩ := hi
      refine ⟨w ++ strBytes k0 ++ w1 ++ 0x3A :: w2, b, w', by simp, hb, sepKeep_ws hw' (by unfold Sep; decide), ?_, here w w1 w2 k0 hw hk hw1 hw2 _⟩
      rintro b' j' ⟨v, c, v', hv, hc, hv', rfl⟩
      have := GMembers.one (tc := tc) w w1 (w2 ++ v) c (v' ++ w') k0 j' hw hk hw1 (ws_append hw2 hv) hc (ws_append hv' hw')
      simpa using this
  | .trailing w w1 w2 b w' w'' k0 j0 ht hw hk hw1 hw2 hb hw' hw'' =>
    cases i with
    | succ i => simp at hi
    | zero =>
      simp at hi; obtain ⟨rfl, rfl⟩ := hi
      refine ⟨w ++ strBytes k0 ++ w1 ++ 0x3A :: w2, b, w' ++ 0x2C :: w'', by simp, hb, ?_, ?_, here w w1 w2 k0 hw hk hw1 hw2 _⟩
      · rw [List.append_assoc]; exact sepKeep_ws hw' (by unfold Sep; decide)
      rintro b' j' ⟨v, c, v', hv, hc, hv', rfl⟩
      have := GMembers.trailing (tc := tc) w w1 (w2 ++ v) c (v' ++ w') w'' k0 j' ht hw hk hw1 (ws_append hw2 hv) hc (ws_append hv' hw') hw''
      simpa using this
  | .cons w w1 w2 b w' rest k0 j0 ms hw hk hw1 hw2 hb hw' hr =>
    cases i with
    | zero =>
      simp at hi; obtain ⟨rfl, rfl⟩ := hi
      refine ⟨w ++ strBytes k0 ++ w1 ++ 0x3A :: w2, b, w' ++ 0x2C :: rest, by simp, hb, ?_, ?_, here w w1 w2 k0 hw hk hw1 hw2 _⟩
      · rw [List.append_assoc]; exact sepKeep_ws hw' (by unfold Sep; decide)
      rintro b' j' ⟨v, c, v', hv, hc, hv', rfl⟩
      have := GMembers.cons (tc := tc) w w1 (w2 ++ v) c (v' ++ w') rest k0 j' ms hw hk hw1 (ws_append hw2 hv) hc (ws_append hv' hw') hr
      simpa using this
    | succ i =>
      obtain ⟨pre, c, post, e, hc, hsep, hs, har⟩ := members_place hr (i := i) (k := k) (j := j) (by simpa using hi)
      refine ⟨w ++ strBytes k0 ++ w1 ++ 0x3A :: (w2 ++ b ++ w' ++ 0x2C :: pre), c, post, by rw [e]; simp, hc, hsep, ?_, ?_⟩
      · intro b' j' ht
        have := GMembers.cons (tc := tc) w w1 w2 b w' _ k0 j0 _ hw hk hw1 hw2 hb hw' (hs b' j' ht)
        simpa using this
      · intro g src cfg f a st off d r htc hlim hd hroom
        subst htc
        obtain ⟨a', e1⟩ := member_comma (g := g) (a := a) (f := f) (st := st) hlim (goes_value hlim hb) hw hk hw1 hw2 hw' (r := pre ++ (d ++ r))
          (by rw [hd]; simp) (hroom.mono (by simp [depthMembers]; omega))
        obtain ⟨w3, st1, off1, ws, e2, h1, h2, h3, h4, h5⟩ := har g src cfg false a' st
          (off + w.length + (strBytes k0).length + w1.length + 1 + w2.length + b.length + w'.length + 1) d r rfl hlim
          (drop_at (a := w ++ strBytes k0 ++ w1 ++ [0x3A] ++ w2 ++ b ++ w' ++ [0x2C]) (by rw [hd]; simp) (by simp; omega)) (hroom.mono (by simp [depthMembers]; omega))
        exact ⟨w3, st1, off1, ws, e1.trans e2, h1, h2, h3, h4, by rw [h5]; simp; omega⟩

theorem depthList_mem {j : Json} : ∀ {js : List Json}, j ∈ js → j.depth ≤ depthList js
  | x :: js, h => by
    rw [depthList]
    rcases List.mem_cons.mp h with rfl | h
    · omega
    · have := depthList_mem h; omega

theorem depthMembers_mem {k : List Item} {j : Json} : ∀ {ms : List (List Item × Json)}, (k, j) ∈ ms → j.depth ≤ depthMembers ms
  | (k', x) :: ms, h => by
    rw [depthMembers]
    rcases List.mem_cons.mp h with h | h
    · cases h; omega
    · have := depthMembers_mem h; omega

/-- One step down. -/
theorem value_step {tc : Bool} {b : List UInt8} {j : Json} (h : GValue tc b j) {i : Nat} {u : Value} (hu : nth i (ofJson j) = some u) :
    ∃ pre c post jc, b = pre ++ c ++ post ∧ GValue tc c jc ∧ u = ofJson jc ∧ SepKeep post ∧ 1 + jc.depth ≤ j.depth
      ∧ (∀ c' jc', Text tc c' jc' → ∃ j', GValue tc (pre ++ c' ++ post) j' ∧ ofJson j' = setNth i (ofJson jc') (ofJson j))
      ∧ ∀ (g : Bool) (src : List UInt8) (cfg : ParseConfig) (w : Want) (st : List Nest) (off : Nat) (ws c r : List UInt8),
        cfg.allowTrailingCommas = tc → src.length < LIM → WantsValue w st → Ws ws → src.drop off = ws ++ (pre ++ (c ++ r)) →
        RoomFor cfg (st.length + j.depth) → Arrives g src cfg w st off c r (st.length + 1) (off + ws.length + pre.length) := by
  cases h with
  | arr body js he =>
    rw [ofJson, nth, ofJsons_map, List.getElem?_map] at hu
    obtain ⟨jc, h1, rfl⟩ := Option.map_eq_some_iff.mp hu
    obtain ⟨pre, c, post, e, hc, hsep, hs, har⟩ := elems_place he h1
    refine ⟨0x5B :: pre, c, post ++ [0x5D], jc, by rw [e]; simp, hc, rfl, hsep, ?_, ?_, ?_⟩
    · rw [Json.depth]
      have := depthList_mem (List.mem_of_getElem? h1)
      omega
    · intro c' jc' ht
      refine ⟨.arr (js.set i jc'), ?_, ?_⟩
      · have := GValue.arr (tc := tc) _ _ (hs c' jc' ht)
        simpa using this
      · rw [ofJson, ofJson, setNth, ofJsons_map, ofJsons_map, List.map_set]
    · intro g src cfg w st off ws d r htc hlim hw hws hd hroom
      rw [Json.depth] at hroom
      obtain ⟨w1, st1, off1, ws1, e1, h1, h2, h3, h4, h5⟩ := har g src cfg true (off + ws.length + 1) st (off + ws.length + 1) d r htc hlim
        (drop_at (a := ws ++ [0x5B]) (by rw [hd]; simp) (by simp; omega)) (hroom.mono (by omega))
      refine ⟨w1, st1, off1, ws1, ?_, h1, h2, h3, h4, by rw [h5]; simp; omega⟩
      rw [← e1]
      exact open_array hlim hw (by rw [hd]; rfl) hws (hroom.mono (by omega))
  | obj body ms he =>
    rw [ofJson, nth, ofMembers_map, List.getElem?_map, Option.map_map] at hu
    obtain ⟨⟨k, jc⟩, h1, rfl⟩ := Option.map_eq_some_iff.mp hu
    obtain ⟨pre, c, post, e, hc, hsep, hs, har⟩ := members_place he h1
    refine ⟨0x7B :: pre, c, post ++ [0x7D], jc, by rw [e]; simp, hc, rfl, hsep, ?_, ?_, ?_⟩
    · rw [Json.depth]
      have := depthMembers_mem (List.mem_of_getElem? h1)
      omega
    · intro c' jc' ht
      refine ⟨.obj (ms.set i (k, jc')), ?_, ?_⟩
      · have := GValue.obj (tc := tc) _ _ (hs c' jc' ht)
        simpa using this
      · rw [ofJson, ofJson, setNth, ofMembers_map, ofMembers_map]
        congr 1
        exact set_entry ms h1 jc'
    · intro g src cfg w st off ws d r htc hlim hw hws hd hroom
      rw [Json.depth] at hroom
      obtain ⟨w1, st1, off1, ws1, e1, h1, h2, h3, h4, h5⟩ := har g src cfg true 0 st (off + ws.length + 1) d r htc hlim
        (drop_at (a := ws ++ [0x7B]) (by rw [hd]; simp) (by simp; omega)) (hroom.mono (by omega))
      refine ⟨w1, st1, off1, ws1, ?_, h1, h2, h3, h4, by rw [h5]; simp; omega⟩
      rw [← e1]
      exact open_object hlim hw (by rw [hd]; rfl) hws (hroom.mono (by omega))
  | emptyArr w hw => simp [ofJson, ofJsons, nth] at hu
  | emptyObj w hw => simp [ofJson, ofMembers, nth] at hu
  | _ => simp [ofJson, nth] at hu

/-- Any number of steps down. -/
theorem value_place {tc : Bool} : ∀ (p : List Nat) {s : List UInt8} {j : Json} {u : Value}, GValue tc s j → partAt p (ofJson j) = some u →
    ∃ pre b post jb, s = pre ++ b ++ post ∧ GValue tc b jb ∧ u = ofJson jb ∧ SepKeep post ∧ p.length + jb.depth ≤ j.depth
      ∧ (∀ b' j', Text tc b' j' → ∃ j'', Text tc (pre ++ b' ++ post) j'' ∧ ofJson j'' = replaceAt p (ofJson j') (ofJson j))
      ∧ ∀ (g : Bool) (src : List UInt8) (cfg : ParseConfig) (w : Want) (st : List Nest) (off : Nat) (ws c r : List UInt8),
        cfg.allowTrailingCommas = tc → src.length < LIM → WantsValue w st → Ws ws → src.drop off = ws ++ (pre ++ (c ++ r)) →
        RoomFor cfg (st.length + j.depth) → Arrives g src cfg w st off c r (st.length + p.length) (off + ws.length + pre.length)
  | [], s, j, u, hb, hu => by
    rw [partAt, Option.some.injEq] at hu
    refine ⟨[], s, [], j, by simp, hb, hu.symm, sepKeep_nil, by simp, ?_, ?_⟩
    · intro b' j' ht
      exact ⟨j', by simpa using ht, rfl⟩
    · intro g src cfg w st off ws d r _ _ hw hws hd _
      exact ⟨w, st, off, ws, rfl, hw, rfl, hd, hws, rfl⟩
  | i :: p, s, j, u, hb, hu => by
    rw [partAt] at hu
    obtain ⟨x, hx, hu⟩ := Option.bind_eq_some_iff.mp hu
    obtain ⟨pre, c, post, jc, e1, hc, rfl, hsep, hdep, hs, har⟩ := value_step hb hx
    obtain ⟨pre', d, post', jd, e2, hd, hj, hsep', hdep', hs', har'⟩ := value_place p hc hu
    refine ⟨pre ++ pre', d, post' ++ post, jd, by rw [e1, e2]; simp, hd, hj, hsep'.append hsep, by simp; omega, ?_, ?_⟩
    · intro b' j' ht
      obtain ⟨j1, ht1, ej1⟩ := hs' b' j' ht
      obtain ⟨j2, ht2, ej2⟩ := hs _ j1 ht1
      refine ⟨j2, ⟨[], _, [], by simp [Ws], ht2, by simp [Ws], by simp⟩, ?_⟩
      rw [ej2, ej1, replaceAt, hx]
    · intro g src cfg w st off ws q r htc hlim hw hws hdrop hroom
      obtain ⟨w1, st1, off1, ws1, a1, a2, a3, a4, a5, a6⟩ := har g src cfg w st off ws (pre' ++ q) r htc hlim hw hws
        (by rw [hdrop]; simp) hroom
      obtain ⟨w2, st2, off2, ws2, b1, b2, b3, b4, b5, b6⟩ := har' g src cfg w1 st1 off1 ws1 q r htc hlim a2 a5
        (by rw [a4]; simp) (hroom.mono (by omega))
      exact ⟨w2, st2, off2, ws2, a1.trans b1, b2, by rw [b3, a3]; simp; omega, b4, b5, by rw [b6]; simp; omega⟩

/-! ## At the place -/

/-- the same containers, over the containers `st` -/
inductive Over (st : List Nest) : List Nest → List Nest → Prop where
  | nil : Over st [] st
  | object (a b : Nat) (s s' : List Nest) : Over st s s' → Over st (.object a :: s) (.object b :: s')
  | array (a b : Nat) (s s' : List Nest) : Over st s s' → Over st (.array a :: s) (.array b :: s')

theorem Over.length {st s s' : List Nest} (h : Over st s s') : s'.length = s.length + st.length := by
  induction h with
  | nil => simp
  | object _ _ _ _ _ ih => simp [ih]; omega
  | array _ _ _ _ _ ih => simp [ih]; omega

theorem crowded_over {st s s' : List Nest} (h : Over st s s') : crowded cfg s' = crowded (cfg.below st.length) s := by
  unfold crowded ParseConfig.below
  cases cfg.recursionLimit with
  | none => rfl
  | some n =>
    have := h.length
    simp only [Option.map_some]
    congr 1
    exact propext (by omega)

theorem over_ne {st s s' : List Nest} (h : Over st s s') (hs : s ≠ []) : s' ≠ [] := by
  cases h with
  | nil => exact absurd rfl hs
  | object => exact nofun
  | array => exact nofun

/-- the turn of the part and of the whole -/
def TurnOver (st : List Nest) (k : Nat) (r r' : Turn) : Prop :=
  match r.2 with
  | .error e => r'.2 = .error (laterError k e)
  | .ok (w, s) => ∃ s', r'.2 = .ok (w, s') ∧ Over st s s' ∧ (s = [] → w = .separator)

theorem value_over {st s s' : List Nest} {k o a : Nat} (h : Over st s s') (hs : s ≠ []) (t : Token) :
    TurnOver st k (takeValue (cfg.below st.length) s o a t) (takeValue cfg s' (o + k) (a + k) t) := by
  have sc : ∀ e, TurnOver st k (takeScalar (cfg.below st.length) s o a e) (takeScalar cfg s' (o + k) (a + k) e) := by
    intro e
    unfold TurnOver
    rw [scalar_next hs, scalar_next (over_ne h hs)]
    exact ⟨s', rfl, h, fun h => absurd h hs⟩
  cases t with
  | null => exact sc _
  | bool b => exact sc _
  | number n => exact sc _
  | string n => exact sc _
  | object =>
    unfold takeValue TurnOver
    rw [crowded_over h]
    cases crowded (cfg.below st.length) s
    · exact ⟨_, rfl, .object _ _ _ _ h, nofun⟩
    · rfl
  | array =>
    unfold takeValue TurnOver
    rw [crowded_over h]
    cases crowded (cfg.below st.length) s
    · exact ⟨_, rfl, .array _ _ _ _ h, nofun⟩
    · rfl
  | _ => rfl

theorem take_arrayEnd {x : Scan} {f : Bool} {a : Nat} {s : List Nest} : takeToken cfg x (.element f) (.array a :: s) .arrayEnd
    = if f || cfg.allowTrailingCommas then closeArray a x.after s else ([], .error ⟨x.before, .illegalTrailingComma⟩) := rfl

theorem take_objectEnd {x : Scan} {f : Bool} {a : Nest} {s : List Nest} : takeToken cfg x (.key f) (a :: s) .objectEnd
    = if f || cfg.allowTrailingCommas then closeObject x.after s else ([], .error ⟨x.before, .illegalTrailingComma⟩) := rfl

theorem take_element {x : Scan} {f : Bool} {a : Nat} {s : List Nest} {t : Token} (h : t ≠ .arrayEnd) :
    takeToken cfg x (.element f) (.array a :: s) t = takeValue cfg (.array a :: s) x.start x.after t := by
  cases t with
  | arrayEnd => exact absurd rfl h
  | _ => rfl

theorem take_over {st s s' : List Nest} {k : Nat} {x x' : Scan} (h : Over st s s') (hs : s ≠ []) (w : Want) (t : Token)
    (h1 : x'.before = x.before + k) (h2 : x'.start = x.start + k) (h3 : x'.after = x.after + k) :
    TurnOver st k (takeToken (cfg.below st.length) x w s t) (takeToken cfg x' w s' t) := by
  have hv1 := fun t => value_over (cfg := cfg) (k := k) (o := x.before) (a := x.after) h hs t
  have hv2 := fun t => value_over (cfg := cfg) (k := k) (o := x.start) (a := x.after) h hs t
  rw [← h1, ← h3] at hv1
  rw [← h2, ← h3] at hv2
  have htc : (cfg.below st.length).allowTrailingCommas = cfg.allowTrailingCommas := rfl
  cases w with
  | value => exact hv1 t
  | element f =>
    cases h with
    | nil => exact absurd rfl hs
    | object a b s s' h =>
      have e1 : ∀ (cfg : ParseConfig) (x : Scan) a s, takeToken cfg x (.element f) (.object a :: s) t = takeValue cfg (.object a :: s) x.start x.after t := by
        intro cfg x a s; cases t <;> rfl
      rw [e1, e1]
      exact hv2 t
    | array a b s s' h =>
      by_cases ht : t = .arrayEnd
      · subst ht
        rw [take_arrayEnd, take_arrayEnd, htc]
        unfold TurnOver
        by_cases hb : (f || cfg.allowTrailingCommas) = true
        · rw [if_pos hb, if_pos hb]
          exact ⟨_, rfl, h, fun _ => rfl⟩
        · rw [if_neg hb, if_neg hb, h1]
          rfl
      · rw [take_element ht, take_element ht]
        exact hv2 t
  | key f =>
    cases h with
    | nil => exact absurd rfl hs
    | object a b s s' h =>
      cases t with
      | objectEnd =>
        rw [take_objectEnd, take_objectEnd, htc]
        unfold TurnOver
        by_cases hb : (f || cfg.allowTrailingCommas) = true
        · rw [if_pos hb, if_pos hb]
          exact ⟨_, rfl, h, fun _ => rfl⟩
        · rw [if_neg hb, if_neg hb, h1]
          rfl
      | string n => exact ⟨_, rfl, .object _ _ _ _ h, nofun⟩
      | _ => unfold takeToken TurnOver; rw [h1]; rfl
    | array a b s s' h =>
      cases t with
      | objectEnd =>
        rw [take_objectEnd, take_objectEnd, htc]
        unfold TurnOver
        by_cases hb : (f || cfg.allowTrailingCommas) = true
        · rw [if_pos hb, if_pos hb]
          exact ⟨_, rfl, h, fun _ => rfl⟩
        · rw [if_neg hb, if_neg hb, h1]
          rfl
      | string n => exact ⟨_, rfl, .array _ _ _ _ h, nofun⟩
      | _ => unfold takeToken TurnOver; rw [h1]; rfl
  | colon =>
    cases h with
    | nil => exact absurd rfl hs
    | object a b s s' h =>
      cases t with
      | colon => exact ⟨_, rfl, .object _ _ _ _ h, nofun⟩
      | _ => unfold takeToken TurnOver; rw [h1]; rfl
    | array a b s s' h =>
      cases t with
      | colon => exact ⟨_, rfl, .object _ _ _ _ h, nofun⟩
      | _ => unfold takeToken TurnOver; rw [h1]; rfl
  | separator =>
    cases h with
    | nil => exact absurd rfl hs
    | object a b s s' h =>
      cases t with
      | objectEnd => exact ⟨_, rfl, h, fun _ => rfl⟩
      | comma => exact ⟨_, rfl, .object _ _ _ _ h, nofun⟩
      | _ => unfold takeToken TurnOver; rw [h1]; rfl
    | array a b s s' h =>
      cases t with
      | arrayEnd => exact ⟨_, rfl, h, fun _ => rfl⟩
      | comma => exact ⟨_, rfl, .array _ _ _ _ h, nofun⟩
      | _ => unfold takeToken TurnOver; rw [h1]; rfl

theorem report_over {st s s' : List Nest} {k : Nat} (h : Over st s s') (hs : s ≠ []) (w : Want) (e : Error Empty) :
    report w s' (laterError k e) = laterError k (report w s e) := by
  obtain ⟨o, kd⟩ := e
  cases h with
  | nil => exact absurd rfl hs
  | object a b s s' h => cases w <;> cases kd <;> rfl
  | array a b s s' h => cases w <;> cases kd <;> rfl

/-- at the root after a value -/
theorem drive_root {len : Nat} {l : List Scan} {e : Error Empty} (h : (drive cfg len l .separator []).2 = some e) :
    e.kind = .trailingNonWhitespace := by
  cases l with
  | nil => cases h
  | cons x l =>
    rw [drive] at h
    by_cases hx : x.start = len
    · rw [if_pos hx] at h; cases h
    · rw [if_neg hx] at h; cases h; rfl

theorem next_over {p q : List UInt8} (o : Nat) :
    match nextOrEof q g o with
    | .ok t s => nextOrEof (p ++ q) g (o + p.length) = .ok t (s + p.length)
    | .err e s => nextOrEof (p ++ q) g (o + p.length) = .err (laterError p.length e) (s + p.length)
    | .panic _ => True := by
  have := win_nextOrEof (p := p) (q := q) (t := []) (k := p.length) rfl g o
  rw [List.append_nil] at this
  unfold Win at this
  cases h : nextOrEof q g o with
  | ok t s => rw [h] at this; exact this.2 (.inr rfl)
  | err e s => rw [h] at this; exact this.2 (.inr rfl)
  | panic r => exact True.intro

theorem drop_over {p q : List UInt8} (o : Nat) : (p ++ q).drop (o + p.length) = q.drop o := by
  rw [Nat.add_comm, ← List.drop_drop]; simp

theorem drive_over {st : List Nest} {p q : List UInt8} {len len' : Nat} {e : Error Empty} (hk : e.kind ≠ .trailingNonWhitespace) :
    ∀ (n o : Nat) (w : Want) (s s' : List Nest), Over st s s' → s ≠ [] →
    (drive (cfg.below st.length) len (scansFrom g q n o) w s).2 = some e →
    (drive cfg len' (scansFrom g (p ++ q) n (o + p.length)) w s').2 = some (laterError p.length e) := by
  intro n
  induction n with
  | zero => intro o w s s' _ _ h; rw [scansFrom, drive] at h; cases h
  | succ n ih =>
    intro o w s s' hov hs h
    have hs' := over_ne hov hs
    have hn := next_over (g := g) (p := p) (q := q) o
    rw [scansFrom] at h ⊢
    rw [drop_over]
    cases hx : nextOrEof q g o with
    | panic r => rw [hx] at h; simp only [] at h; rw [drive] at h; cases h
    | err e0 a =>
      rw [hx] at h hn
      simp only [] at h hn
      rw [hn]
      simp only []
      rw [drive_error rfl (.inr hs)] at h
      rw [drive_error rfl (.inr hs'), report_over hov hs]
      injection h with h
      simp only [h]
    | ok t a =>
      rw [hx] at h hn
      simp only [] at h hn
      rw [hn]
      simp only []
      have ht := take_over (cfg := cfg) (k := p.length)
        (x := ⟨o, o + ((q.drop o).takeWhile fun b => decide (b ∈ [0x20, 0x09, 0x0A, 0x0D])).length, .ok t, a⟩)
        (x' := ⟨o + p.length, o + p.length + ((q.drop o).takeWhile fun b => decide (b ∈ [0x20, 0x09, 0x0A, 0x0D])).length, .ok t, a + p.length⟩)
        hov hs w t rfl (Nat.add_right_comm _ _ _) rfl
      unfold TurnOver at ht
      cases h1 : takeToken (cfg.below st.length)
        ⟨o, o + ((q.drop o).takeWhile fun b => decide (b ∈ [0x20, 0x09, 0x0A, 0x0D])).length, .ok t, a⟩ w s t with
      | mk l r =>
      cases h2 : takeToken cfg
        ⟨o + p.length, o + p.length + ((q.drop o).takeWhile fun b => decide (b ∈ [0x20, 0x09, 0x0A, 0x0D])).length, .ok t, a + p.length⟩ w s' t with
      | mk l' r' =>
      rw [h1, h2] at ht
      cases r with
      | error e0 =>
        simp only [] at ht
        subst ht
        rw [drive_stop rfl (.inr hs) h1] at h
        rw [drive_stop rfl (.inr hs') h2]
        injection h with h
        simp only [h]
      | ok y =>
        obtain ⟨w1, s1⟩ := y
        obtain ⟨s1', e1, hov1, hroot⟩ := ht
        simp only [] at e1
        subst e1
        rw [drive_go rfl (.inr hs) h1] at h
        rw [drive_go rfl (.inr hs') h2]
        simp only [prior] at h ⊢
        by_cases hs1 : s1 = []
        · subst hs1
          rw [hroot rfl] at h
          exact absurd (drive_root h) hk
        · exact ih a w1 s1 s1' hov1 hs1 h

theorem runLen_ws {w x : List UInt8} (h : Ws w) : runLen isWs (w ++ x) = w.length + runLen isWs x := by
  induction w with
  | nil => simp
  | cons b w ih =>
    have hb : isWs b = true := by
      rcases h b (List.mem_cons_self) with rfl | rfl | rfl | rfl <;> rfl
    rw [List.cons_append, runLen, hb, if_pos rfl, ih fun y hy => h y (List.mem_cons_of_mem _ hy), List.length_cons]
    omega

theorem machine_over {p q ws : List UInt8} {off : Nat} {w : Want} {st : List Nest} {e : Error Empty}
    (hw : WantsValue w st) (hd : (p ++ q).drop off = ws ++ q) (hws : Ws ws) (hoff : off + ws.length = p.length)
    (h : (machineAt g q (cfg.below st.length) .value [] 0).2 = some e)
    (hk : e.kind ≠ .trailingNonWhitespace) (hk2 : e.kind ≠ .unexpectedEof) (hk3 : 0 < e.offset ∨ e.kind ∉ misplaced) :
    (machineAt g (p ++ q) cfg w st off).2 = some (laterError p.length e) := by
  have hne := wants_ne hw
  have hnext : nextOrEof (p ++ q) g off = nextOrEof (p ++ q) g (0 + p.length) := by
    rw [← next_skip (off := off), ← next_skip (off := 0 + p.length), drop_over, hd, runLen_ws hws]
    congr 1
    simp; omega
  have hn := next_over (g := g) (p := p) (q := q) 0
  cases hx : nextOrEof q g 0 with
  | panic r =>
    unfold machineAt itemsAt at h
    rw [scansFrom, hx] at h
    simp only [] at h
    rw [drive] at h
    cases h
  | err e0 a =>
    rw [hx] at hn
    simp only [] at hn
    rw [at_err (w := .value) hx (.inl nofun)] at h
    have : report .value [] e0 = e0 := by obtain ⟨o, kd⟩ := e0; cases kd <;> rfl
    rw [this] at h
    injection h with h
    subst h
    rw [at_err (hnext.trans hn) hne, report_other]
    · exact hk2
    · rcases hw with rfl | ⟨f, a, s, rfl, rfl⟩ <;> exact nofun
  | ok t a =>
    rw [hx] at hn
    simp only [] at hn
    have hbad : ∀ kd, takeValue (cfg.below st.length) [] 0 a t = ([], .error ⟨0, kd⟩) → kd ∈ misplaced → False := by
      intro kd ht hm
      rw [at_stop (w := .value) hx (.inl nofun) ht] at h
      injection h with h
      subst h
      rcases hk3 with h | h
      · exact Nat.lt_irrefl _ h
      · exact h hm
    have hsc : ∀ ev, takeValue (cfg.below st.length) [] 0 a t = takeScalar (cfg.below st.length) [] 0 a ev → False := by
      intro ev ht
      rw [at_go (w := .value) hx (.inl nofun) (w' := .separator) (st' := []) (l := [(0, ev)]) (ht.trans rfl)] at h
      exact hk (drive_root h)
    have hcr := crowded_over (cfg := cfg) (st := st) .nil
    have go : ∀ (n : Nest) (n' : Nest) (w1 : Want) (l l' : List (Nat × Event)), Over st [n] (n' :: st) → t ≠ .arrayEnd →
        takeValue (cfg.below st.length) [] 0 a t = (l, .ok (w1, [n])) → (∀ o, takeValue cfg st o (a + p.length) t = (l', .ok (w1, n' :: st))) →
        (machineAt g (p ++ q) cfg w st off).2 = some (laterError p.length e) := by
      intro n n' w1 l l' hov ht h1 h2
      rw [at_go (w := .value) hx (.inl nofun) (w' := w1) (st' := [n]) (l := l) h1] at h
      obtain ⟨o, h3⟩ := wants_take (cfg := cfg)
        (x := ⟨off, off + runLen isWs ((p ++ q).drop off), .ok t, a + p.length⟩) hw ht
      rw [at_go (hnext.trans hn) hne (h3.trans (h2 o))]
      have hfuel : itemsAt g (p ++ q) (a + p.length) = scansFrom g (p ++ q) (q.length + 1 - a + 1) (a + p.length) :=
        scansFrom_fuel _ _ _ (by simp) (by simp; omega)
      unfold machineAt itemsAt at h
      unfold machineAt
      rw [hfuel]
      exact drive_over hk _ _ _ _ _ hov nofun h
    cases t with
    | null => exact (hsc _ rfl).elim
    | bool b => exact (hsc _ rfl).elim
    | number n => exact (hsc _ rfl).elim
    | string n => exact (hsc _ rfl).elim
    | object =>
      cases hc : crowded (cfg.below st.length) [] with
      | true => exact (hbad .recursionLimitReached (by simp [takeValue, hc]) (by simp [misplaced])).elim
      | false =>
        exact go (.object 0) (.object 0) _ _ _ (.object _ _ _ _ .nil) nofun (by simp [takeValue, hc]; exact ⟨rfl, rfl⟩)
          fun o => by simp [takeValue, hcr, hc]; rfl
    | array =>
      cases hc : crowded (cfg.below st.length) [] with
      | true => exact (hbad .recursionLimitReached (by simp [takeValue, hc]) (by simp [misplaced])).elim
      | false =>
        exact go (.array a) (.array (a + p.length)) _ _ _ (.array _ _ _ _ .nil) nofun (by simp [takeValue, hc]; exact ⟨rfl, rfl⟩)
          fun o => by simp [takeValue, hcr, hc]; rfl
    | objectEnd => exact (hbad _ rfl (by simp [misplaced])).elim
    | arrayEnd => exact (hbad _ rfl (by simp [misplaced])).elim
    | colon => exact (hbad _ rfl (by simp [misplaced])).elim
    | comma => exact (hbad _ rfl (by simp [misplaced])).elim

/-! ## Keys -/

variable (g src cfg) in
/-- From here the machine comes to where `c` begins, with a key wanted. -/
def ArrivesKey (w : Want) (st : List Nest) (off : Nat) (c r : List UInt8) (pos : Nat) : Prop :=
  ∃ f st' off' ws, (machineAt g src cfg w st off).2 = (machineAt g src cfg (.key f) st' off').2
    ∧ src.drop off' = ws ++ (c ++ r) ∧ Ws ws ∧ off' + ws.length = pos

theorem members_key {tc : Bool} {body : List UInt8} {ms : List (List Item × Json)} (h : GMembers tc body ms) :
    ∀ {i : Nat} {k : List Item} {j : Json}, ms[i]? = some (k, j) →
    ∃ pre post, body = pre ++ strBytes k ++ post ∧ ItemsValid k ∧ (∃ w r, Ws w ∧ post = w ++ 0x3A :: r)
      ∧ (∀ b' k', Text tc b' (.str k') → GMembers tc (pre ++ b' ++ post) (ms.set i (k', j)))
      ∧ ∀ (g : Bool) (src : List UInt8) (cfg : ParseConfig) (f : Bool) (a : Nat) (st : List Nest) (off : Nat) (c r : List UInt8),
        cfg.allowTrailingCommas = tc → src.length < LIM → src.drop off = pre ++ (c ++ r) → RoomFor cfg (st.length + 1 + depthMembers ms) →
        ArrivesKey g src cfg (.key f) (.object a :: st) off c r (off + pre.length) := by
  intro i k j hi
  have here : ∀ (w : List UInt8), Ws w → ∀ (ms : List (List Item × Json)) (g : Bool)
      (src : List UInt8) (cfg : ParseConfig) (f : Bool) (a : Nat) (st : List Nest) (off : Nat) (c r : List UInt8),
        cfg.allowTrailingCommas = tc → src.length < LIM → src.drop off = w ++ (c ++ r) →
        RoomFor cfg (st.length + 1 + depthMembers ms) →
        ArrivesKey g src cfg (.key f) (.object a :: st) off c r (off + w.length) := by
    intro w hw ms g src cfg f a st off c r _ hlim hd _
    exact ⟨_, _, off, w, rfl, hd, hw, rfl⟩
  match h with
  | .one w w1 w2 b w' k0 j0 hw hk hw1 hw2 hb hw' =>
    cases i with
    | succ i => simp at hi
    | zero =>
      simp at hi; obtain ⟨rfl, rfl⟩ := hi
      refine ⟨w, w1 ++ 0x3A :: (w2 ++ b ++ w'), by simp, hk, ⟨w1, _, hw1, rfl⟩, ?_, here w hw _⟩
      intro b' k' hkt
      obtain ⟨x, x', hx, hx', hk', rfl⟩ := text_str hkt
      have := GMembers.one (tc := tc) (w ++ x) (x' ++ w1) w2 b w' k' j0 (ws_append hw hx) hk' (ws_append hx' hw1) hw2 hb hw'
      simpa using this
  | .trailing w w1 w2 b w' w'' k0 j0 ht hw hk hw1 hw2 hb hw' hw'' =>
    cases i with
    | succ i => simp at hi
    | zero =>
      simp at hi; obtain ⟨rfl, rfl⟩ := hi
      refine ⟨w, w1 ++ 0x3A :: (w2 ++ b ++ w' ++ 0x2C :: w''), by simp, hk, ⟨w1, _, hw1, rfl⟩, ?_, here w hw _⟩
      intro b' k' hkt
      obtain ⟨x, x', hx, hx', hk', rfl⟩ := text_str hkt
      have := GMembers.trailing (tc := tc) (w ++ x) (x' ++ w1) w2 b w' w'' k' j0 ht (ws_append hw hx) hk' (ws_append hx' hw1) hw2 hb hw' hw''
      simpa using this
  | .cons w w1 w2 b w' rest k0 j0 ms hw hk hw1 hw2 hb hw' hr =>
    cases i with
    | zero =>
      simp at hi; obtain ⟨rfl, rfl⟩ := hi
      refine ⟨w, w1 ++ 0x3A :: (w2 ++ b ++ w' ++ 0x2C :: rest), by simp, hk, ⟨w1, _, hw1, rfl⟩, ?_, here w hw _⟩
      intro b' k' hkt
      obtain ⟨x, x', hx, hx', hk', rfl⟩ := text_str hkt
      have := GMembers.cons (tc := tc) (w ++ x) (x' ++ w1) w2 b w' rest k' j0 ms (ws_append hw hx) hk' (ws_append hx' hw1) hw2 hb hw' hr
      simpa using this
    | succ i =>
      obtain ⟨pre, post, e, hk', hcol, hs, har⟩ := members_key hr (i := i) (k := k) (j := j) (by simpa using hi)
      refine ⟨w ++ strBytes k0 ++ w1 ++ 0x3A :: (w2 ++ b ++ w' ++ 0x2C :: pre), post, by rw [e]; simp, hk', hcol, ?_, ?_⟩
      · intro b' k' ht
        have := GMembers.cons (tc := tc) w w1 w2 b w' _ k0 j0 _ hw hk hw1 hw2 hb hw' (hs b' k' ht)
        simpa using this
      · intro g src cfg f a st off d r htc hlim hd hroom
        subst htc
        obtain ⟨a', e1⟩ := member_comma (g := g) (a := a) (f := f) (st := st) hlim (goes_value hlim hb) hw hk hw1 hw2 hw' (r := pre ++ (d ++ r))
          (by rw [hd]; simp) (hroom.mono (by simp [depthMembers]; omega))
        obtain ⟨f', st1, off1, ws, e2, h3, h4, h5⟩ := har g src cfg false a' st
          (off + w.length + (strBytes k0).length + w1.length + 1 + w2.length + b.length + w'.length + 1) d r rfl hlim
          (drop_at (a := w ++ strBytes k0 ++ w1 ++ [0x3A] ++ w2 ++ b ++ w' ++ [0x2C]) (by rw [hd]; simp) (by simp; omega)) (hroom.mono (by simp [depthMembers]; omega))
        exact ⟨f', st1, off1, ws, e1.trans e2, h3, h4, by rw [h5]; simp; omega⟩

/-- An entry of an object. -/
theorem entry_step {tc : Bool} {b : List UInt8} {j : Json} (h : GValue tc b j) {es : Object} (he : ofJson j = .object es) {i : Nat}
    {k : JsonString} {u : Value} (hi : es[i]? = some (k, u)) :
    ∃ pre kb post kc, b = pre ++ kb ++ post ∧ GValue tc kb (.str kc) ∧ k = canonStr kc ∧ (∃ w r, Ws w ∧ post = w ++ 0x3A :: r)
      ∧ (∀ kb' kc', Text tc kb' (.str kc') → ∃ j', GValue tc (pre ++ kb' ++ post) j' ∧ ofJson j' = .object (es.set i (canonStr kc', u)))
      ∧ ∀ (g : Bool) (src : List UInt8) (cfg : ParseConfig) (w : Want) (st : List Nest) (off : Nat) (ws c r : List UInt8),
        cfg.allowTrailingCommas = tc → src.length < LIM → WantsValue w st → Ws ws → src.drop off = ws ++ (pre ++ (c ++ r)) →
        RoomFor cfg (st.length + j.depth) → ArrivesKey g src cfg w st off c r (off + ws.length + pre.length) := by
  cases h with
  | obj body ms hm =>
    rw [ofJson] at he
    injection he with he
    subst he
    rw [ofMembers_map, List.getElem?_map] at hi
    obtain ⟨⟨kc, jc⟩, h1, h2⟩ := Option.map_eq_some_iff.mp hi
    injection h2 with h2 h3
    subst h2 h3
    obtain ⟨pre, post, e, hkv, ⟨w, r, hw, hpost⟩, hs, har⟩ := members_key hm h1
    refine ⟨0x7B :: pre, strBytes kc, post ++ [0x7D], kc, by rw [e]; simp, .str kc hkv, rfl, ⟨w, r ++ [0x7D], hw, by rw [hpost]; simp⟩, ?_, ?_⟩
    · intro kb' kc' ht
      refine ⟨.obj (ms.set i (kc', jc)), ?_, ?_⟩
      · have := GValue.obj (tc := tc) _ _ (hs kb' kc' ht)
        simpa using this
      · rw [ofJson, ofMembers_map, ofMembers_map, List.map_set]
    · intro g src cfg w st off ws d r htc hlim hw hws hd hroom
      rw [Json.depth] at hroom
      obtain ⟨w1, st1, off1, ws1, e1, h3, h4, h5⟩ := har g src cfg true 0 st (off + ws.length + 1) d r htc hlim
        (drop_at (a := ws ++ [0x7B]) (by rw [hd]; simp) (by simp; omega)) (hroom.mono (by omega))
      refine ⟨w1, st1, off1, ws1, ?_, h3, h4, by rw [h5]; simp; omega⟩
      rw [← e1]
      exact open_object hlim hw (by rw [hd]; rfl) hws (hroom.mono (by omega))
  | emptyObj w hw =>
    injection he with he
    subst he
    simp [ofMembers] at hi
  | _ => cases he

theorem next_shifted {p q ws : List UInt8} {off : Nat} (hd : (p ++ q).drop off = ws ++ q) (hws : Ws ws) (hoff : off + ws.length = p.length) :
    nextOrEof (p ++ q) g off = nextOrEof (p ++ q) g (0 + p.length) := by
  rw [← next_skip (off := off), ← next_skip (off := 0 + p.length), drop_over, hd, runLen_ws hws]
  congr 1
  simp; omega

/-- A token that begins with a quote is a string. -/
theorem next_quote {q r : List UInt8} {t : Token} {a : Nat} (hq : q = 0x22 :: r) (h : nextOrEof q g 0 = .ok t a) : ∃ s, t = .string s := by
  unfold nextOrEof at h
  rw [M.bind_ok (readNonWs_cons (w := []) (b := 0x22) (t := r) (by simp [Ws]) (by rw [hq]; rfl) (by decide))] at h
  have h : (do return .string (← readString q g 0) : TokM Token) 1 = .ok t a := h
  obtain ⟨s, _, _, h2⟩ := bind_ok_inv h
  injection h2 with h2 _
  exact ⟨s, h2.symm⟩

theorem machine_key {p q ws : List UInt8} {off : Nat} {f : Bool} {st : List Nest} {e : Error Empty} {cfg' : ParseConfig} {r : List UInt8}
    (hq : q = 0x22 :: r) (hroot : cfg'.allowAllTypesAtRoot = true)
    (hd : (p ++ q).drop off = ws ++ q) (hws : Ws ws) (hoff : off + ws.length = p.length)
    (h : (machineAt g q cfg' .value [] 0).2 = some e) (hk : e.kind ≠ .trailingNonWhitespace) (hk2 : e.kind ≠ .unexpectedEof) :
    (machineAt g (p ++ q) cfg (.key f) st off).2 = some (laterError p.length e) := by
  have hn := next_over (g := g) (p := p) (q := q) 0
  cases hx : nextOrEof q g 0 with
  | panic r =>
    unfold machineAt itemsAt at h
    rw [scansFrom, hx] at h
    simp only [] at h
    rw [drive] at h
    cases h
  | err e0 a =>
    rw [hx] at hn
    simp only [] at hn
    rw [at_err (w := .value) hx (.inl nofun)] at h
    have : report .value [] e0 = e0 := by obtain ⟨o, kd⟩ := e0; cases kd <;> rfl
    rw [this] at h
    injection h with h
    subst h
    rw [at_err (w := .key f) ((next_shifted hd hws hoff).trans hn) (.inl nofun), report_other (w := .key f) (e := laterError p.length e0) hk2 nofun]
  | ok t a =>
    obtain ⟨s, rfl⟩ := next_quote hq hx
    rw [at_go (w := .value) hx (.inl nofun) (w' := .separator) (st' := []) (l := [(0, .string s)])
      (by simp [takeToken, takeValue, takeScalar, delivered, hroot])] at h
    exact absurd (drive_root h) hk

end
end JustJson
