import Verif.Spec.Machine
import Verif.Lemmas.Stack
/-! # The items of the tokenizer and the machine that takes them -/

namespace JustJson
open Spec

set_option linter.unusedSectionVars false

section
variable [Arch] {g : Bool} {src : List UInt8} {cfg : ParseConfig}

theorem runLen_takeWhile (p : UInt8 → Bool) (l : List UInt8) : runLen p l = (l.takeWhile p).length := by
  induction l with
  | nil => rfl
  | cons b l ih =>
    rw [runLen, List.takeWhile_cons]
    cases p b
    · rfl
    · simp [ih]

theorem next_inside {off off' : Nat} {tok : Token} (h : nextOrEof src g off = .ok tok off') :
    off + runLen isWs (src.drop off) < src.length := by
  by_cases hl : off + runLen isWs (src.drop off) < src.length
  · exact hl
  exfalso
  unfold nextOrEof at h
  obtain ⟨a, s1, h1, _⟩ := bind_ok_inv h
  unfold readNonWs at h1
  obtain ⟨_, s2, h2, h3⟩ := bind_ok_inv h1
  rw [skipWs_eq] at h2
  injection h2 with _ h2
  subst h2
  have : src[off + runLen isWs (src.drop off)]? = none := List.getElem?_eq_none (by omega)
  unfold read at h3
  rw [read_none this] at h3
  cases h3

theorem next_lt {off off' : Nat} {tok : Token} (h : nextOrEof src g off = .ok tok off') : off < off' := by
  have hl := next_inside h
  have := sim_next (src := src) (t := ⟨off, 0⟩) g (by show off ≤ _; omega)
  unfold TMirror Mirror at this
  cases hm : nextOrEofC src g ⟨off, 0⟩ with
  | ok a t =>
    rw [hm] at this
    obtain ⟨h1, h2, _⟩ := this
    have h1 : nextOrEof src g off = _ := h1
    rw [h] at h1
    injection h1 with _ h1
    have h1 : off' = t.offset := h1
    have : off < t.offset := h2
    omega
  | err e t =>
    rw [hm] at this
    have h1 : nextOrEof src g off = _ := this.1
    rw [h] at h1
    cases h1
  | panic p =>
    rw [hm] at this
    have h1 : nextOrEof src g off = _ := this
    rw [h] at h1
    cases h1

theorem scansFrom_fuel (n : Nat) : ∀ m off, src.length + 1 - off + 1 ≤ n → src.length + 1 - off + 1 ≤ m →
    scansFrom g src n off = scansFrom g src m off := by
  induction n with
  | zero => intro m off h; omega
  | succ n ih =>
    intro m off hn hm
    cases m with
    | zero => omega
    | succ m =>
      rw [scansFrom, scansFrom]
      cases hx : nextOrEof src g off with
      | ok t o =>
        simp only []
        have h1 := next_lt hx
        have h2 := next_inside hx
        rw [ih m o (by omega) (by omega)]
      | err e o => rfl
      | panic p => rfl

variable (g src) in
/-- the items from an offset on -/
def itemsAt (off : Nat) : List Scan := scansFrom g src (src.length + 1 - off + 1) off

theorem scans_eq : scans g src = itemsAt g src 0 := scansFrom_fuel _ _ _ (by omega) (by omega)

theorem spaces_ws : (fun b : UInt8 => decide (b ∈ [0x20, 0x09, 0x0A, 0x0D])) = isWs := by
  funext b
  simp only [isWs, List.mem_cons, List.not_mem_nil, or_false]
  by_cases h1 : b = 0x20 <;> by_cases h2 : b = 0x09 <;> by_cases h3 : b = 0x0A <;> by_cases h4 : b = 0x0D <;>
    simp [h1, h2, h3, h4]

theorem items_ok {off o : Nat} {t : Token} (h : nextOrEof src g off = .ok t o) :
    itemsAt g src off = ⟨off, off + runLen isWs (src.drop off), .ok t, o⟩ :: itemsAt g src o := by
  have h1 := next_lt h
  have h2 := next_inside h
  unfold itemsAt
  rw [scansFrom, spaces_ws, h, runLen_takeWhile]
  simp only []
  rw [scansFrom_fuel _ (src.length + 1 - o + 1) o (by omega) (by omega)]

theorem items_err {off o : Nat} {e : Error Empty} (h : nextOrEof src g off = .err e o) :
    itemsAt g src off = [⟨off, off + runLen isWs (src.drop off), .error e, o⟩] := by
  unfold itemsAt
  rw [scansFrom, spaces_ws, h, runLen_takeWhile]

/-- callbacks first -/
def prior (l : List (Nat × Event)) (r : List (Nat × Event) × Option (Error Empty)) : List (Nat × Event) × Option (Error Empty) :=
  (l ++ r.1, r.2)

theorem prior_nil (r : List (Nat × Event) × Option (Error Empty)) : prior [] r = r := rfl
theorem prior_prior (l l' : List (Nat × Event)) (r : List (Nat × Event) × Option (Error Empty)) :
    prior l (prior l' r) = prior (l ++ l') r := by simp [prior]

theorem drive_error {len : Nat} {x : Scan} {xs : List Scan} {w : Want} {st : List Nest} {e : Error Empty} (hx : x.item = .error e)
    (hw : w ≠ .separator ∨ st ≠ []) : drive cfg len (x :: xs) w st = ([], some (report w st e)) := by
  rw [drive]
  · rw [hx]
  · rintro rfl rfl
    rcases hw with hw | hw <;> exact hw rfl

theorem drive_stop {len : Nat} {x : Scan} {xs : List Scan} {w : Want} {st : List Nest} {t : Token} {l : List (Nat × Event)} {e : Error Empty}
    (hx : x.item = .ok t) (hw : w ≠ .separator ∨ st ≠ []) (ht : takeToken cfg x w st t = (l, .error e)) :
    drive cfg len (x :: xs) w st = (l, some e) := by
  rw [drive]
  · rw [hx]
    simp only [ht]
  · rintro rfl rfl
    rcases hw with hw | hw <;> exact hw rfl

theorem drive_go {len : Nat} {x : Scan} {xs : List Scan} {w w' : Want} {st st' : List Nest} {t : Token} {l : List (Nat × Event)}
    (hx : x.item = .ok t) (hw : w ≠ .separator ∨ st ≠ []) (ht : takeToken cfg x w st t = (l, .ok (w', st'))) :
    drive cfg len (x :: xs) w st = prior l (drive cfg len xs w' st') := by
  rw [drive]
  · rw [hx]
    simp only [ht]
    rfl
  · rintro rfl rfl
    rcases hw with hw | hw <;> exact hw rfl

theorem skip_again {off : Nat} : runLen isWs (src.drop (off + runLen isWs (src.drop off))) = 0 := by
  rw [← List.drop_drop]
  generalize src.drop off = l
  induction l with
  | nil => rfl
  | cons b l ih =>
    rw [runLen]
    cases hb : isWs b
    · simp [runLen, hb]
    · simpa using ih

theorem next_skip {off : Nat} : nextOrEof src g (off + runLen isWs (src.drop off)) = nextOrEof src g off := by
  unfold nextOrEof readNonWs
  rw [M.bind_eq, M.bind_eq, M.bind_eq, M.bind_eq, skipWs_eq, skipWs_eq, skip_again]
  rfl

theorem readPeek_arrayEnd {o off off' : Nat} {b : UInt8} (h : readPeek src g o b off = .ok .arrayEnd off') : b = 0x5D := by
  have str : ∀ {m : TokM JsonString} {s s' : Nat}, (do return .string (← m) : TokM Token) s ≠ .ok .arrayEnd s' := by
    intro m s s' hh
    obtain ⟨a, _, _, h2⟩ := bind_ok_inv hh
    injection h2 with h2 _
    cases h2
  have num : ∀ {m : TokM JsonNumber} {s s' : Nat}, (do return .number (← m) : TokM Token) s ≠ .ok .arrayEnd s' := by
    intro m s s' hh
    obtain ⟨a, _, _, h2⟩ := bind_ok_inv hh
    injection h2 with h2 _
    cases h2
  have lit : ∀ {m : TokM Unit} {s s' : Nat} {k : Token}, k ≠ .arrayEnd → (m >>= fun _ => (pure k : TokM Token)) s ≠ .ok .arrayEnd s' := by
    intro m s s' k hk hh
    obtain ⟨a, _, _, h2⟩ := bind_ok_inv hh
    injection h2 with h2 _
    exact hk h2
  have no : ∀ {k : Token} {s s' : Nat}, k ≠ .arrayEnd → (M.pure k : TokM Token) s ≠ .ok .arrayEnd s' := by
    intro k s s' hk hh
    injection hh with h2 _
    exact hk h2
  unfold readPeek at h
  by_cases c0 : b = 0x7B
  · rw [if_pos c0] at h; exact absurd h (no (by simp))
  rw [if_neg c0] at h
  by_cases c1 : b = 0x7D
  · rw [if_pos c1] at h; exact absurd h (no (by simp))
  rw [if_neg c1] at h
  by_cases c2 : b = 0x5B
  · rw [if_pos c2] at h; exact absurd h (no (by simp))
  rw [if_neg c2] at h
  by_cases c3 : b = 0x5D
  · exact c3
  rw [if_neg c3] at h
  by_cases c4 : b = 0x2C
  · rw [if_pos c4] at h; exact absurd h (no (by simp))
  rw [if_neg c4] at h
  by_cases c5 : b = 0x3A
  · rw [if_pos c5] at h; exact absurd h (no (by simp))
  rw [if_neg c5] at h
  by_cases c6 : b = 0x22
  · rw [if_pos c6] at h; exact absurd h str
  rw [if_neg c6] at h
  by_cases c7 : b = 0x2D
  · rw [if_pos c7] at h; exact absurd h num
  rw [if_neg c7] at h
  by_cases c8 : b = 0x30
  · rw [if_pos c8] at h; exact absurd h num
  rw [if_neg c8] at h
  by_cases c9 : 0x31 ≤ b ∧ b ≤ 0x39
  · rw [if_pos c9] at h; exact absurd h num
  rw [if_neg c9] at h
  by_cases c10 : b = 0x74
  · rw [if_pos c10] at h; exact absurd h (lit (by simp))
  rw [if_neg c10] at h
  by_cases c11 : b = 0x66
  · rw [if_pos c11] at h; exact absurd h (lit (by simp))
  rw [if_neg c11] at h
  by_cases c12 : b = 0x6E
  · rw [if_pos c12] at h; exact absurd h (lit (by simp))
  rw [if_neg c12] at h
  cases h

theorem peek_close {off o1 : Nat} (h : tokPeek src off = .ok (some .arrayEnd) o1) :
    o1 = off + runLen isWs (src.drop off) ∧ nextOrEof src g off = .ok .arrayEnd (o1 + 1) := by
  rw [tokPeek_eq] at h
  injection h with h1 h2
  subst h2
  refine ⟨rfl, ?_⟩
  rw [List.head?_drop] at h1
  cases hb : src[off + runLen isWs (src.drop off)]? with
  | none => rw [hb] at h1; cases h1
  | some b =>
    rw [hb] at h1
    injection h1 with h1
    cases peekKind_arrayEnd h1
    unfold nextOrEof readNonWs
    rw [M.bind_eq, M.bind_eq, skipWs_eq]
    simp only []
    unfold read
    rw [read_some hb]
    rfl

theorem peek_other {off o1 : Nat} {k : Option PeekableTokenKind} (h : tokPeek src off = .ok k o1) (hk : k ≠ some .arrayEnd) :
    o1 = off + runLen isWs (src.drop off) ∧ ∀ o, nextOrEof src g off ≠ .ok .arrayEnd o := by
  rw [tokPeek_eq] at h
  injection h with h1 h2
  subst h2
  refine ⟨rfl, fun o ho => hk ?_⟩
  rw [← h1, List.head?_drop]
  unfold nextOrEof at ho
  obtain ⟨⟨o2, b⟩, s1, h3, h4⟩ := bind_ok_inv ho
  unfold readNonWs at h3
  obtain ⟨_, s2, h5, h6⟩ := bind_ok_inv h3
  rw [skipWs_eq] at h5
  injection h5 with _ h5
  subst h5
  cases hb : src[off + runLen isWs (src.drop off)]? with
  | none => unfold read at h6; rw [read_none hb] at h6; cases h6
  | some c =>
    unfold read at h6
    rw [read_some hb] at h6
    cases h6
    cases readPeek_arrayEnd h4
    rfl

variable (g src cfg) in
/-- the machine from an offset on -/
def machineAt (w : Want) (st : List Nest) (off : Nat) : List (Nat × Event) × Option (Error Empty) :=
  drive cfg src.length (itemsAt g src off) w st

theorem at_err {off o : Nat} {e : Error Empty} {w : Want} {st : List Nest} (h : nextOrEof src g off = .err e o)
    (hw : w ≠ .separator ∨ st ≠ []) : machineAt g src cfg w st off = ([], some (report w st e)) := by
  unfold machineAt
  rw [items_err h]
  exact drive_error rfl hw

theorem at_stop {off o : Nat} {t : Token} {e : Error Empty} {w : Want} {st : List Nest} {l : List (Nat × Event)}
    (h : nextOrEof src g off = .ok t o) (hw : w ≠ .separator ∨ st ≠ [])
    (ht : takeToken cfg ⟨off, off + runLen isWs (src.drop off), .ok t, o⟩ w st t = (l, .error e)) :
    machineAt g src cfg w st off = (l, some e) := by
  unfold machineAt
  rw [items_ok h]
  exact drive_stop rfl hw ht

theorem at_go {off o : Nat} {t : Token} {w w' : Want} {st st' : List Nest} {l : List (Nat × Event)}
    (h : nextOrEof src g off = .ok t o) (hw : w ≠ .separator ∨ st ≠ [])
    (ht : takeToken cfg ⟨off, off + runLen isWs (src.drop off), .ok t, o⟩ w st t = (l, .ok (w', st'))) :
    machineAt g src cfg w st off = prior l (machineAt g src cfg w' st' o) := by
  unfold machineAt
  rw [items_ok h]
  exact drive_go rfl hw ht

theorem report_other {w : Want} {st : List Nest} {e : Error Empty} (hk : e.kind ≠ .unexpectedEof) (hw : w ≠ .colon) : report w st e = e := by
  obtain ⟨off, k⟩ := e
  unfold report
  split
  · exact absurd rfl hw
  · rename_i h; exact absurd h hk
  · rename_i h; exact absurd h hk
  · rfl

theorem report_object {w : Want} {c : Nat} {st : List Nest} {e : Error Empty} (hw : w ≠ .colon) :
    report w (.object c :: st) e = eofTo .unclosedObject e := by
  obtain ⟨off, k⟩ := e
  cases w with
  | colon => exact absurd rfl hw
  | _ => cases k <;> rfl

theorem report_array {w : Want} {c : Nat} {st : List Nest} {e : Error Empty} (hw : w ≠ .colon) :
    report w (.array c :: st) e = eofTo .unclosedArray e := by
  obtain ⟨off, k⟩ := e
  cases w with
  | colon => exact absurd rfl hw
  | _ => cases k <;> rfl

theorem eofTo_kind {k : ErrorKind Empty} {e : Error Empty} (hk : k ≠ .unexpectedEof) : (eofTo k e).kind ≠ .unexpectedEof := by
  obtain ⟨off, k'⟩ := e
  cases k' with
  | unexpectedEof => exact hk
  | _ => exact fun h => by cases h

/-- an element of an array, after whitespace -/
theorem at_element {off b : Nat} {f : Bool} {st : List Nest} (hn : ∀ o, nextOrEof src g off ≠ .ok .arrayEnd o) :
    machineAt g src cfg (.element f) (.array b :: st) off
      = machineAt g src cfg .value (.array b :: st) (off + runLen isWs (src.drop off)) := by
  have hs := next_skip (g := g) (src := src) (off := off)
  cases h : nextOrEof src g off with
  | panic p =>
    have e1 : ∀ o, nextOrEof src g o = .panic p → itemsAt g src o = [] := by
      intro o ho
      unfold itemsAt
      rw [scansFrom, ho]
    unfold machineAt
    rw [e1 _ h, e1 _ (hs.trans h), drive, drive]
  | err e o =>
    rw [at_err (w := .element f) h (.inl nofun), at_err (w := .value) (hs.trans h) (.inl nofun), report_array (w := .element f) nofun, report_array (w := .value) nofun]
  | ok t o =>
    have ht : takeToken cfg ⟨off, off + runLen isWs (src.drop off), .ok t, o⟩ (.element f) (.array b :: st) t
        = takeToken cfg ⟨off + runLen isWs (src.drop off), off + runLen isWs (src.drop off) + runLen isWs (src.drop (off + runLen isWs (src.drop off))), .ok t, o⟩ .value (.array b :: st) t := by
      cases t with
      | arrayEnd => exact absurd h (hn o)
      | _ => rfl
    unfold machineAt
    rw [items_ok h, items_ok (hs.trans h), drive, drive]
    · simp only [ht]
    · nofun
    · nofun

end
end JustJson
