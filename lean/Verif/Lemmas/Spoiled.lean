import Verif.Lemmas.Local
import Verif.Lemmas.Written
/-! # Texts with a malformed `\u` escape where a string is due -/

namespace JustJson
open Spec

set_option linter.unusedSectionVars false

section
variable [Arch] {src : List UInt8} {cfg : ParseConfig}

/-- the string loop goes over items -/
theorem loop_items {start : Nat} : ∀ (is : List Item) {fuel n off : Nat} {e : Bool} {r : List UInt8}, ItemsValid is →
    src.drop off = bodyBytes is ++ r → n + (bodyBytes is).length < LIM → (bodyBytes is).length < fuel →
    ∃ f e' n', readStringLoop src true start fuel (.new e n) off
      = readStringLoop src true start (f + 1) (.new e' n') (off + (bodyBytes is).length)
  | [], fuel, n, off, e, r, _, _, _, hf => by
    obtain ⟨f, rfl⟩ : ∃ f, fuel = f + 1 := ⟨fuel - 1, by omega⟩
    exact ⟨f, e, n, rfl⟩
  | i :: is, fuel, n, off, e, r, hv, hd, hn, hf => by
    rw [ItemsValid.cons] at hv
    have hcl := Item.codeLen_le hv.1
    have hip := Item.bytes_pos i
    rw [bodyBytes_cons, List.append_assoc] at hd
    rw [bodyBytes_cons, List.length_append] at hn hf
    rw [bodyBytes_cons, List.length_append, ← Nat.add_assoc]
    cases he : i.isEscape with
    | true =>
      obtain ⟨fuel, rfl⟩ : ∃ f, fuel = f + 1 := ⟨fuel - 1, by omega⟩
      rw [loop_escape hd hv.1 he (by omega)]
      exact loop_items is hv.2 (r := r) (by rw [← List.drop_drop, hd]; simp) (by omega) (by omega)
    | false =>
      match i, he with
      | .plain c, _ =>
        have hsafe : ∀ b ∈ (Item.plain c).bytes, safeLookup (safeTable true) b = true := by
          by_cases ha : c.toNat < 0x80
          · exact plain_ascii_safe true hv.1 ha
          · intro b hb
            have := encodeChar_high (by omega) b hb
            rw [safe_true_iff]
            omega
        obtain ⟨f, rfl⟩ : ∃ f, fuel = f + (Item.plain c).bytes.length :=
          ⟨fuel - (Item.plain c).bytes.length, by omega⟩
        rw [loop_safe _ hd hsafe (by omega)]
        exact loop_items is hv.2 (r := r) (by rw [← List.drop_drop, hd]; simp) (by omega) (by omega)

/-- a string with `\u` and then no digit -/
theorem next_spoiled {off : Nat} {w r : List UInt8} {is : List Item} {x : UInt8} (hw : Ws w) (hv : ItemsValid is) (hx : hexVal x = none)
    (h : src.drop off = w ++ 0x22 :: (bodyBytes is ++ 0x5C :: 0x75 :: x :: r)) (hlim : src.length < LIM) :
    ∃ o, nextOrEof src true off = .err ⟨off + w.length + 1 + (bodyBytes is).length + 2, .invalidHexadecimal⟩ o := by
  have h0 : src.drop (off + w.length) = 0x22 :: (bodyBytes is ++ 0x5C :: 0x75 :: x :: r) := drop_step h
  have h1 := drop_succ_of_cons h0
  have h2 : src.drop (off + w.length + 1 + (bodyBytes is).length) = 0x5C :: 0x75 :: x :: r := drop_step h1
  have h3 := drop_succ_of_cons h2
  have h4 := drop_succ_of_cons h3
  have hl : (bodyBytes is).length + 1 ≤ src.length := by
    have := congrArg List.length h0
    simp at this
    omega
  obtain ⟨f, e', n', e⟩ := loop_items (start := off + w.length) (fuel := src.length + 1) (n := 0) (e := false) is hv h1 (by omega) (by omega)
  refine ⟨off + w.length + 1 + (bodyBytes is).length + 3, ?_⟩
  unfold nextOrEof
  rw [M.bind_ok (readNonWs_cons hw h (by decide))]
  show readPeek src true (off + w.length) 0x22 (off + w.length + 1) = _
  rw [readPeek_quote]
  refine M.bind_err ?_
  unfold readString
  rw [NONE_eq, e, loop_backslash h2]
  refine M.bind_err ?_
  unfold readStringEscape
  rw [M.bind_ok (read_cons h3)]
  simp only
  rw [if_neg (by decide), if_pos (by decide)]
  refine M.bind_err ?_
  rw [readHex_bad h4 hx]

/-! ## Values laid out -/

variable (B : JsonString → List UInt8)

mutual
/-- A value with whitespace between its lexemes, whose strings are written as `B` says. -/
inductive Laid : Value → List UInt8 → Prop where
  | null : Laid .null [0x6E, 0x75, 0x6C, 0x6C]
  | true : Laid (.boolean true) [0x74, 0x72, 0x75, 0x65]
  | false : Laid (.boolean false) [0x66, 0x61, 0x6C, 0x73, 0x65]
  | num (x : JsonNumber) (n : NumLit) : n.Valid → Laid (.number x) n.bytes
  | str (s : JsonString) : Laid (.string s) (0x22 :: (B s ++ [0x22]))
  | emptyArr : Laid (.array []) [0x5B, 0x5D]
  | arr (v : Value) (vs : List Value) (b : List UInt8) : LaidElems v vs b → Laid (.array (v :: vs)) (0x5B :: (b ++ [0x5D]))
  | emptyObj : Laid (.object []) [0x7B, 0x7D]
  | obj (k : JsonString) (v : Value) (es : Object) (b : List UInt8) : LaidEntries k v es b → Laid (.object ((k, v) :: es)) (0x7B :: (b ++ [0x7D]))
/-- one or more elements -/
inductive LaidElems : Value → List Value → List UInt8 → Prop where
  | one (v : Value) (w b w' : List UInt8) : Ws w → Laid v b → Ws w' → LaidElems v [] (w ++ b ++ w')
  | cons (v v' : Value) (vs : List Value) (w b w' r : List UInt8) : Ws w → Laid v b → Ws w' → LaidElems v' vs r →
      LaidElems v (v' :: vs) (w ++ b ++ w' ++ 0x2C :: r)
/-- one or more entries -/
inductive LaidEntries : JsonString → Value → Object → List UInt8 → Prop where
  | one (k : JsonString) (v : Value) (w w1 w2 b w' : List UInt8) : Ws w → Ws w1 → Ws w2 → Laid v b → Ws w' →
      LaidEntries k v [] (w ++ (0x22 :: (B k ++ [0x22])) ++ w1 ++ 0x3A :: (w2 ++ b ++ w'))
  | cons (k k' : JsonString) (v v' : Value) (es : Object) (w w1 w2 b w' r : List UInt8) : Ws w → Ws w1 → Ws w2 → Laid v b → Ws w' →
      LaidEntries k' v' es r →
      LaidEntries k v ((k', v') :: es) (w ++ (0x22 :: (B k ++ [0x22])) ++ w1 ++ 0x3A :: (w2 ++ b ++ w' ++ 0x2C :: r))
end

variable {B}

/-- A string is written as valid items, or it has items and then `\u` and a letter past `f`. -/
def GoodOrSpoiled (b : List UInt8) : Prop :=
  (∃ is, ItemsValid is ∧ b = bodyBytes is)
  ∨ ∃ is c y, ItemsValid is ∧ b = bodyBytes is ++ 0x5C :: 0x75 :: c :: y ∧ 0x6B ≤ c.toNat ∧ c.toNat ≤ 0x70

theorem past_f {c : UInt8} (h1 : 0x6B ≤ c.toNat) (h2 : c.toNat ≤ 0x70) : hexVal c = none := by
  have : ∀ c : Fin 256, 0x6B ≤ c.val → c.val ≤ 0x70 → hexVal (UInt8.ofNat c.val) = none := by decide +kernel
  have := this ⟨c.toNat, c.toNat_lt⟩ h1 h2
  simpa using this

/-- Where a parse stops: at a letter past `f` after `\u`. -/
def StopAt (b : List UInt8) (k : Nat) : Prop :=
  ∃ x c y, b = x ++ 0x5C :: 0x75 :: c :: y ∧ 0x6B ≤ c.toNat ∧ c.toNat ≤ 0x70 ∧ k = x.length + 2

theorem StopAt.inside {b : List UInt8} {k : Nat} (h : StopAt b k) (p q : List UInt8) {k' : Nat} (hk : k' = p.length + k) :
    StopAt (p ++ b ++ q) k' := by
  obtain ⟨x, c, y, rfl, h1, h2, rfl⟩ := h
  exact ⟨p ++ x, c, y ++ q, by simp, h1, h2, by rw [hk]; simp; omega⟩

/-- the machine stops in a value -/
def StopsValue (d : Nat) (b : List UInt8) : Prop :=
  ∃ k, StopAt b k ∧ ∀ (src : List UInt8) (cfg : ParseConfig) (w : Want) (st : List Nest) (off : Nat) (ws r : List UInt8),
    src.length < LIM → WantsValue w st → src.drop off = ws ++ (b ++ r) → Ws ws → RoomFor cfg (st.length + d) →
    (machineAt true src cfg w st off).2 = some ⟨off + ws.length + k, .invalidHexadecimal⟩

/-- in the rest of an array -/
def StopsElems (d : Nat) (b : List UInt8) : Prop :=
  ∃ k, StopAt b k ∧ ∀ (src : List UInt8) (cfg : ParseConfig) (f : Bool) (a : Nat) (st : List Nest) (off : Nat) (r : List UInt8),
    src.length < LIM → src.drop off = b ++ r → RoomFor cfg (st.length + 1 + d) →
    (machineAt true src cfg (.element f) (.array a :: st) off).2 = some ⟨off + k, .invalidHexadecimal⟩

/-- in the rest of an object -/
def StopsEntries (d : Nat) (b : List UInt8) : Prop :=
  ∃ k, StopAt b k ∧ ∀ (src : List UInt8) (cfg : ParseConfig) (f : Bool) (a : Nat) (st : List Nest) (off : Nat) (r : List UInt8),
    src.length < LIM → src.drop off = b ++ r → RoomFor cfg (st.length + 1 + d) →
    (machineAt true src cfg (.key f) (.object a :: st) off).2 = some ⟨off + k, .invalidHexadecimal⟩

theorem stop_string {src : List UInt8} {cfg : ParseConfig} {w : Want} {st : List Nest} {off : Nat} {ws r : List UInt8} {is : List Item} {c : UInt8}
    (hlim : src.length < LIM) (hw : w ≠ .separator) (hc : w ≠ .colon) (hws : Ws ws) (hv : ItemsValid is)
    (h1 : 0x6B ≤ c.toNat) (h2 : c.toNat ≤ 0x70)
    (h : src.drop off = ws ++ 0x22 :: (bodyBytes is ++ 0x5C :: 0x75 :: c :: r)) :
    (machineAt true src cfg w st off).2 = some ⟨off + ws.length + (1 + (bodyBytes is).length + 2), .invalidHexadecimal⟩ := by
  obtain ⟨o, e⟩ := next_spoiled hws hv (past_f h1 h2) h hlim
  rw [at_err e (.inl hw)]
  have : ∀ (st : List Nest) (n : Nat), report w st ⟨n, .invalidHexadecimal⟩ = ⟨n, .invalidHexadecimal⟩ := by
    intro st n
    unfold report
    cases w <;> first | exact absurd rfl hc | (cases st with | nil => rfl | cons a l => cases a <;> rfl)
  simp only [this]
  congr 2
  omega

theorem stops_key {w w1 b : List UInt8} {is : List Item} {c : UInt8} {y : List UInt8} {d : Nat} (hw : Ws w) (hv : ItemsValid is)
    (h1 : 0x6B ≤ c.toNat) (h2 : c.toNat ≤ 0x70) (hb : b = w ++ (0x22 :: ((bodyBytes is ++ 0x5C :: 0x75 :: c :: y) ++ [0x22])) ++ w1) :
    StopsEntries d b := by
  refine ⟨w.length + (1 + (bodyBytes is).length + 2), ?_, ?_⟩
  · exact ⟨w ++ 0x22 :: bodyBytes is, c, y ++ [0x22] ++ w1, by rw [hb]; simp, h1, h2, by simp; omega⟩
  · intro src cfg f a st off r hlim hd _
    rw [stop_string (w := .key f) (st := .object a :: st) (r := y ++ [0x22] ++ w1 ++ r) hlim nofun nofun hw hv h1 h2 (by rw [hd, hb]; simp)]
    congr 2
    omega

/-- A laid out value is in the grammar, or the machine stops in it. -/
theorem laid_stops {v : Value} {b : List UInt8} (h : Laid B v b) : (∀ s ∈ v.strings, GoodOrSpoiled (B s)) →
    (∃ j, (∀ tc, GValue tc b j) ∧ j.depth = v.depth) ∨ StopsValue v.depth b := by
  refine Laid.rec (B := B)
    (motive_1 := fun v b _ => (∀ s ∈ v.strings, GoodOrSpoiled (B s)) → (∃ j, (∀ tc, GValue tc b j) ∧ j.depth = v.depth) ∨ StopsValue v.depth b)
    (motive_2 := fun v vs b _ => (∀ s ∈ Value.stringsElems (v :: vs), GoodOrSpoiled (B s)) →
      (∃ js, (∀ tc, GElems tc b js) ∧ depthList js = Value.depthList (v :: vs)) ∨ StopsElems (Value.depthList (v :: vs)) b)
    (motive_3 := fun k v es b _ => (∀ s ∈ Value.stringsEntries ((k, v) :: es), GoodOrSpoiled (B s)) →
      (∃ ms, (∀ tc, GMembers tc b ms) ∧ depthMembers ms = Value.depthEntries ((k, v) :: es)) ∨ StopsEntries (Value.depthEntries ((k, v) :: es)) b)
    ?_ ?_ ?_ ?_ ?_ ?_ ?_ ?_ ?_ ?_ ?_ ?_ ?_ h
  · exact fun _ => .inl ⟨_, fun _ => .null, rfl⟩
  · exact fun _ => .inl ⟨_, fun _ => .true, rfl⟩
  · exact fun _ => .inl ⟨_, fun _ => .false, rfl⟩
  · exact fun x n hn _ => .inl ⟨_, fun _ => .num n hn, rfl⟩
  · intro s hs
    rcases hs s (by simp [Value.strings]) with ⟨is, hv, e⟩ | ⟨is, c, y, hv, e, h1, h2⟩
    · refine .inl ⟨.str is, fun _ => ?_, rfl⟩
      rw [e]
      exact .str is hv
    · refine .inr ⟨1 + (bodyBytes is).length + 2, ⟨0x22 :: bodyBytes is, c, y ++ [0x22], by rw [e]; simp, h1, h2, by simp; omega⟩, ?_⟩
      intro src cfg w st off ws r hlim hw hd hws _
      refine stop_string (r := y ++ [0x22] ++ r) hlim ?_ ?_ hws hv h1 h2 (by rw [hd, e]; simp)
      · rcases hw with rfl | ⟨f, a, s, rfl, _⟩ <;> nofun
      · rcases hw with rfl | ⟨f, a, s, rfl, _⟩ <;> nofun
  · exact fun _ => .inl ⟨_, fun _ => .emptyArr [] ws_nil, rfl⟩
  · intro v vs b _ ih hs
    rcases ih hs with ⟨js, h1, h2⟩ | ⟨k, h1, h2⟩
    · exact .inl ⟨_, fun tc => .arr _ _ (h1 tc), by rw [Json.depth, Value.depth, h2]⟩
    · refine .inr ⟨1 + k, by have := h1.inside [0x5B] [0x5D] (k' := 1 + k) rfl; simpa using this, ?_⟩
      intro src cfg w st off ws r hlim hw hd hws hr
      rw [Value.depth] at hr
      rw [open_array hlim hw (by rw [hd]; rfl) hws (hr.mono (by omega)),
        h2 src cfg _ _ _ _ ([0x5D] ++ r) hlim (drop_at (a := ws ++ [0x5B]) (by rw [hd]; simp) (by simp; omega)) (hr.mono (by omega))]
      congr 2
      omega
  · exact fun _ => .inl ⟨_, fun _ => .emptyObj [] ws_nil, rfl⟩
  · intro k v es b _ ih hs
    rcases ih hs with ⟨ms, h1, h2⟩ | ⟨k, h1, h2⟩
    · exact .inl ⟨_, fun tc => .obj _ _ (h1 tc), by rw [Json.depth, Value.depth, h2]⟩
    · refine .inr ⟨1 + k, by have := h1.inside [0x7B] [0x7D] (k' := 1 + k) rfl; simpa using this, ?_⟩
      intro src cfg w st off ws r hlim hw hd hws hr
      rw [Value.depth] at hr
      rw [open_object hlim hw (by rw [hd]; rfl) hws (hr.mono (by omega)),
        h2 src cfg _ _ _ _ ([0x7D] ++ r) hlim (drop_at (a := ws ++ [0x7B]) (by rw [hd]; simp) (by simp; omega)) (hr.mono (by omega))]
      congr 2
      omega
  · intro v w b w' hw _ hw' ih hs
    rcases ih (fun s m => hs s (by simp [Value.stringsElems, m])) with ⟨j, h1, h2⟩ | ⟨k, h1, h2⟩
    · exact .inl ⟨[j], fun tc => .one _ _ _ _ hw (h1 tc) hw', by simp [depthList, Value.depthList, h2]⟩
    · refine .inr ⟨w.length + k, h1.inside w w' rfl, ?_⟩
      intro src cfg f a st off r hlim hd hr
      rw [h2 src cfg _ _ off w (w' ++ r) hlim (.inr ⟨f, a, st, rfl, rfl⟩) (by rw [hd]; simp) hw (hr.mono (by simp [Value.depthList]))]
      congr 2
      omega
  · intro v v' vs w b w' r hw _ hw' _ ih ihr hs
    rcases ih (fun s m => hs s (by simp [Value.stringsElems, m])) with ⟨j, h1, h2⟩ | ⟨k, h1, h2⟩
    · rcases ihr (fun s m => hs s (by rw [Value.stringsElems]; exact List.mem_append.mpr (.inr m))) with ⟨js, h3, h4⟩ | ⟨k, h3, h4⟩
      · exact .inl ⟨j :: js, fun tc => .cons _ _ _ _ _ _ hw (h1 tc) hw' (h3 tc), by rw [depthList, Value.depthList, h2, h4]⟩
      · refine .inr ⟨(w ++ b ++ w' ++ [0x2C]).length + k, by have := h3.inside (w ++ b ++ w' ++ [0x2C]) [] rfl; simpa using this, ?_⟩
        intro src cfg f a st off q hlim hd hr
        rw [Value.depthList] at hr
        rw [elem_comma hlim (goes_value hlim (h1 _)) hw hw' (r := r ++ q) (by rw [hd]; simp) (hr.mono (by rw [h2]; omega)),
          h4 src cfg _ _ _ _ q hlim (drop_at (a := w ++ b ++ w' ++ [0x2C]) (by rw [hd]; simp) (by simp; omega)) (hr.mono (by omega))]
        congr 2
        simp
        omega
    · refine .inr ⟨w.length + k, by have := h1.inside w (w' ++ 0x2C :: r) rfl; simpa using this, ?_⟩
      intro src cfg f a st off q hlim hd hr
      rw [Value.depthList] at hr
      rw [h2 src cfg _ _ off w (w' ++ 0x2C :: r ++ q) hlim (.inr ⟨f, a, st, rfl, rfl⟩) (by rw [hd]; simp) hw (hr.mono (by simp; omega))]
      congr 2
      omega
  · intro k v w w1 w2 b w' hw hw1 hw2 _ hw' ih hs
    rcases hs k (by simp [Value.stringsEntries]) with ⟨is, hv, e⟩ | ⟨is, c, y, hv, e, e1, e2⟩
    · have es : (0x22 :: (B k ++ [0x22])) = strBytes is := by rw [e]; rfl
      rw [es]
      rcases ih (fun s m => hs s (by simp [Value.stringsEntries, m])) with ⟨j, h1, h2⟩ | ⟨k', h1, h2⟩
      · exact .inl ⟨[(is, j)], fun tc => .one _ _ _ _ _ _ _ hw hv hw1 hw2 (h1 tc) hw', by simp [depthMembers, Value.depthEntries, h2]⟩
      · refine .inr ⟨(w ++ strBytes is ++ w1 ++ 0x3A :: w2).length + k',
          by have := h1.inside (w ++ strBytes is ++ w1 ++ 0x3A :: w2) w' rfl; simpa using this, ?_⟩
        intro src cfg f a st off q hlim hd hr
        rw [Value.depthEntries] at hr
        obtain ⟨o, ho, hd', e⟩ := key_go (g := true) (cfg := cfg) (f := f) (c := a) (st := st) (r := w2 ++ (b ++ (w' ++ q))) hlim hw hv hw1
          (by rw [hd]; simp)
        rw [e, h2 src cfg _ _ o w2 (w' ++ q) hlim (.inl rfl) hd' hw2 (hr.mono (by simp; omega))]
        congr 2
        rw [ho]
        simp
        omega
    · exact .inr (stops_key (y := y) (w1 := w1 ++ 0x3A :: (w2 ++ b ++ w')) hw hv e1 e2 (by rw [e]; simp))
  · intro k k' v v' es w w1 w2 b w' r hw hw1 hw2 _ hw' _ ih ihr hs
    rcases hs k (by simp [Value.stringsEntries]) with ⟨is, hv, e⟩ | ⟨is, c, y, hv, e, e1, e2⟩
    · have es : (0x22 :: (B k ++ [0x22])) = strBytes is := by rw [e]; rfl
      rw [es]
      rcases ih (fun s m => hs s (by simp [Value.stringsEntries, m])) with ⟨j, h1, h2⟩ | ⟨k', h1, h2⟩
      · rcases ihr (fun s m => hs s (by
          rw [Value.stringsEntries]; exact List.mem_cons_of_mem _ (List.mem_append.mpr (.inr m)))) with ⟨ms, h3, h4⟩ | ⟨k', h3, h4⟩
        · exact .inl ⟨(is, j) :: ms, fun tc => .cons _ _ _ _ _ _ _ _ _ hw hv hw1 hw2 (h1 tc) hw' (h3 tc), by
            rw [depthMembers, Value.depthEntries, h2, h4]⟩
        · refine .inr ⟨(w ++ strBytes is ++ w1 ++ 0x3A :: (w2 ++ b ++ w' ++ [0x2C])).length + k',
            by have := h3.inside (w ++ strBytes is ++ w1 ++ 0x3A :: (w2 ++ b ++ w' ++ [0x2C])) [] rfl; simpa using this, ?_⟩
          intro src cfg f a st off q hlim hd hr
          rw [Value.depthEntries] at hr
          obtain ⟨a', e⟩ := member_comma (g := true) (a := a) (f := f) (st := st) hlim (goes_value hlim (h1 _)) hw hv hw1 hw2 hw' (r := r ++ q)
            (by rw [hd]; simp) (hr.mono (by rw [h2]; omega))
          rw [e, h4 src cfg _ _ _ _ q hlim (drop_at (a := w ++ strBytes is ++ w1 ++ 0x3A :: (w2 ++ b ++ w' ++ [0x2C])) (by rw [hd]; simp) (by simp; omega))
            (hr.mono (by omega))]
          congr 2
          simp
          omega
      · refine .inr ⟨(w ++ strBytes is ++ w1 ++ 0x3A :: w2).length + k',
          by have := h1.inside (w ++ strBytes is ++ w1 ++ 0x3A :: w2) (w' ++ 0x2C :: r) rfl; simpa using this, ?_⟩
        intro src cfg f a st off q hlim hd hr
        rw [Value.depthEntries] at hr
        obtain ⟨o, ho, hd', e⟩ := key_go (g := true) (cfg := cfg) (f := f) (c := a) (st := st) (r := w2 ++ (b ++ (w' ++ 0x2C :: r ++ q))) hlim hw hv hw1
          (by rw [hd]; simp)
        rw [e, h2 src cfg _ _ o w2 (w' ++ 0x2C :: r ++ q) hlim (.inl rfl) hd' hw2 (hr.mono (by simp; omega))]
        congr 2
        rw [ho]
        simp
        omega
    · exact .inr (stops_key (y := y) (w1 := w1 ++ 0x3A :: (w2 ++ b ++ w' ++ 0x2C :: r)) hw hv e1 e2 (by rw [e]; simp))

/-! ## What is written is laid out -/

variable {body : JsonString → Str}

theorem quoted_body (s : JsonString) : utf8 (quoted (body s)) = 0x22 :: ((fun s => utf8 (body s)) s ++ [0x22]) := utf8_quoted _

theorem laid_compact : (∀ v : Value, (∀ x ∈ v.numbers, x.WellFormed) → Laid (fun s => utf8 (body s)) v (utf8 (compact body v)))
    ∧ (∀ es : Object, (∀ x ∈ Value.numbersEntries es, x.WellFormed) → ∀ k v t, es = (k, v) :: t →
        LaidEntries (fun s => utf8 (body s)) k v t (utf8 (joined [','] (compactEntries body es))))
    ∧ (∀ vs : List Value, (∀ x ∈ Value.numbersElems vs, x.WellFormed) → ∀ v t, vs = v :: t →
        LaidElems (fun s => utf8 (body s)) v t (utf8 (joined [','] (compactElems body vs)))) := by
  have e1 : utf8 [','] = [0x2C] := rfl
  have e3 : utf8 [':'] = [0x3A] := rfl
  apply Value.induct
  · intro _; exact .null
  · intro b _; cases b
    · exact .false
    · exact .true
  · intro x hn
    obtain ⟨n, h1, h2⟩ := hn x (by simp [Value.numbers])
    rw [compact, show utf8 x.sourceStr = n.bytes from h2]
    exact .num x n h1
  · intro s _
    rw [compact, quoted_body]
    exact .str s
  · intro es ih hn
    rw [Value.numbers] at hn
    cases es with
    | nil => exact .emptyObj
    | cons e es =>
      obtain ⟨k, v⟩ := e
      have := Laid.obj _ _ _ _ (ih hn k v es rfl)
      rw [compact, List.append_assoc, utf8_append, utf8_append]
      exact this
  · intro vs ih hn
    rw [Value.numbers] at hn
    cases vs with
    | nil => exact .emptyArr
    | cons v vs =>
      have := Laid.arr _ _ _ (ih hn v vs rfl)
      rw [compact, List.append_assoc, utf8_append, utf8_append]
      exact this
  · intro _ k v t h; cases h
  · intro k v es ihv ih hn k0 v0 t0 h
    cases h
    rw [Value.numbersEntries] at hn
    have hv := ihv fun x hx => hn x (List.mem_append.mpr (.inl hx))
    cases es with
    | nil =>
      have := LaidEntries.one (B := fun s => utf8 (body s)) k v [] [] [] _ [] ws_nil ws_nil ws_nil hv ws_nil
      show LaidEntries _ k v [] (utf8 (quoted (body k) ++ [':'] ++ compact body v))
      rw [List.append_assoc, utf8_append, utf8_append, quoted_body, e3]
      simpa using this
    | cons e es =>
      obtain ⟨k', v'⟩ := e
      have := LaidEntries.cons (B := fun s => utf8 (body s)) k k' v v' es [] [] [] _ [] _ ws_nil ws_nil ws_nil hv ws_nil
        (ih (fun x hx => hn x (List.mem_append.mpr (.inr hx))) k' v' es rfl)
      show LaidEntries _ k v ((k', v') :: es) (utf8 (quoted (body k) ++ [':'] ++ compact body v ++ [','] ++ joined [','] (compactEntries body ((k', v') :: es))))
      simp only [utf8_append]
      rw [quoted_body, e1, e3]
      simpa using this
  · intro _ v t h; cases h
  · intro v vs ihv ih hn v0 t0 h
    cases h
    rw [Value.numbersElems] at hn
    have hv := ihv fun x hx => hn x (List.mem_append.mpr (.inl hx))
    cases vs with
    | nil =>
      have := LaidElems.one (B := fun s => utf8 (body s)) v [] _ [] ws_nil hv ws_nil
      simpa [compactElems, joined] using this
    | cons v' vs =>
      have := LaidElems.cons (B := fun s => utf8 (body s)) v v' vs [] _ [] _ ws_nil hv ws_nil
        (ih (fun x hx => hn x (List.mem_append.mpr (.inr hx))) v' vs rfl)
      show LaidElems _ v (v' :: vs) (utf8 (compact body v ++ [','] ++ joined [','] (compactElems body (v' :: vs))))
      rw [List.append_assoc, utf8_append, utf8_append, e1]
      simpa using this

theorem laid_layout {indent lineEnding : Str} (hi : Ws (utf8 indent)) (hl : Ws (utf8 lineEnding)) :
    (∀ v : Value, (∀ x ∈ v.numbers, x.WellFormed) → ∀ d, Laid (fun s => utf8 (body s)) v (utf8 (layout body indent lineEnding d v)))
    ∧ (∀ es : Object, (∀ x ∈ Value.numbersEntries es, x.WellFormed) → ∀ k v t, es = (k, v) :: t → ∀ d z, Ws z →
        LaidEntries (fun s => utf8 (body s)) k v t (utf8 lineEnding ++ utf8 (joined (',' :: lineEnding) (layoutEntries body indent lineEnding d es)) ++ z))
    ∧ (∀ vs : List Value, (∀ x ∈ Value.numbersElems vs, x.WellFormed) → ∀ v t, vs = v :: t → ∀ d z, Ws z →
        LaidElems (fun s => utf8 (body s)) v t (utf8 lineEnding ++ utf8 (joined (',' :: lineEnding) (layoutElems body indent lineEnding d vs)) ++ z)) := by
  have hc : Ws [0x20] := by intro b hb; simp at hb; exact .inl hb
  have e1 : utf8 ": ".toList = [0x3A, 0x20] := rfl
  have e2 : utf8 [','] = [0x2C] := rfl
  have e3 : utf8 ['['] = [0x5B] := rfl
  have e4 : utf8 [']'] = [0x5D] := rfl
  have e5 : utf8 ['{'] = [0x7B] := rfl
  have e6 : utf8 ['}'] = [0x7D] := rfl
  apply Value.induct
  · intro _ d; rw [layout]; exact .null
  · intro b _ d; rw [layout]; cases b
    · exact .false
    · exact .true
  · intro x hn d
    obtain ⟨n, h1, h2⟩ := hn x (by simp [Value.numbers])
    rw [layout, show utf8 x.sourceStr = n.bytes from h2]
    exact .num x n h1
  · intro s _ d
    rw [layout, quoted_body]
    exact .str s
  · intro es ih hn d
    rw [Value.numbers] at hn
    cases es with
    | nil => rw [layout]; exact .emptyObj
    | cons e es =>
      obtain ⟨k, v⟩ := e
      have := Laid.obj _ _ _ _ (ih hn k v es rfl (d + 1) (utf8 lineEnding ++ utf8 (indented indent d)) (ws_append hl (ws_indented hi d)))
      simp only [layout, utf8_append]
      rw [e5, e6]
      simpa using this
  · intro vs ih hn d
    rw [Value.numbers] at hn
    cases vs with
    | nil => rw [layout]; exact .emptyArr
    | cons v vs =>
      have := Laid.arr _ _ _ (ih hn v vs rfl (d + 1) (utf8 lineEnding ++ utf8 (indented indent d)) (ws_append hl (ws_indented hi d)))
      simp only [layout, utf8_append]
      rw [e3, e4]
      simpa using this
  · intro _ k v t h; cases h
  · intro k v es ihv ih hn k0 v0 t0 h d z hz
    cases h
    rw [Value.numbersEntries] at hn
    have hv := ihv (fun x hx => hn x (List.mem_append.mpr (.inl hx))) d
    cases es with
    | nil =>
      have := LaidEntries.one (B := fun s => utf8 (body s)) k v (utf8 lineEnding ++ utf8 (indented indent d)) [] [0x20] _ z
        (ws_append hl (ws_indented hi d)) ws_nil hc hv hz
      show LaidEntries _ k v [] (utf8 lineEnding ++ utf8 (indented indent d ++ quoted (body k) ++ ": ".toList ++ layout body indent lineEnding d v) ++ z)
      simp only [utf8_append]
      rw [quoted_body, e1]
      simpa using this
    | cons e es =>
      obtain ⟨k', v'⟩ := e
      have := LaidEntries.cons (B := fun s => utf8 (body s)) k k' v v' es (utf8 lineEnding ++ utf8 (indented indent d)) [] [0x20] _ [] _
        (ws_append hl (ws_indented hi d)) ws_nil hc hv ws_nil (ih (fun x hx => hn x (List.mem_append.mpr (.inr hx))) k' v' es rfl d z hz)
      show LaidEntries _ k v ((k', v') :: es) (utf8 lineEnding ++ utf8 (indented indent d ++ quoted (body k) ++ ": ".toList
        ++ layout body indent lineEnding d v ++ ([','] ++ lineEnding)
        ++ joined (',' :: lineEnding) (layoutEntries body indent lineEnding d ((k', v') :: es))) ++ z)
      simp only [utf8_append]
      rw [quoted_body, e1, e2]
      simpa using this
  · intro _ v t h; cases h
  · intro v vs ihv ih hn v0 t0 h d z hz
    cases h
    rw [Value.numbersElems] at hn
    have hv := ihv (fun x hx => hn x (List.mem_append.mpr (.inl hx))) d
    cases vs with
    | nil =>
      have := LaidElems.one (B := fun s => utf8 (body s)) v (utf8 lineEnding ++ utf8 (indented indent d)) _ z (ws_append hl (ws_indented hi d)) hv hz
      simpa [layoutElems, joined, utf8_append] using this
    | cons v' vs =>
      have := LaidElems.cons (B := fun s => utf8 (body s)) v v' vs (utf8 lineEnding ++ utf8 (indented indent d)) _ [] _
        (ws_append hl (ws_indented hi d)) hv ws_nil (ih (fun x hx => hn x (List.mem_append.mpr (.inr hx))) v' vs rfl d z hz)
      show LaidElems _ v (v' :: vs) (utf8 lineEnding ++ utf8 (indented indent d ++ layout body indent lineEnding d v ++ ([','] ++ lineEnding)
        ++ joined (',' :: lineEnding) (layoutElems body indent lineEnding d (v' :: vs))) ++ z)
      simp only [utf8_append]
      rw [e2]
      simpa using this

/-! ## Rendered strings -/

theorem illegible_past_f : ∀ n : Fin 32, Illegible (Char.ofNat n.val) →
    (utf8 (rend (Char.ofNat n.val))).take 2 = [0x5C, 0x75] ∧ ∃ x ∈ ((utf8 (rend (Char.ofNat n.val))).drop 2).head?,
      0x6B ≤ x.toNat ∧ x.toNat ≤ 0x70 := by
  decide +kernel

theorem illegible_rend {c : Char} (hc : Illegible c) :
    ∃ x t, utf8 (rend c) = 0x5C :: 0x75 :: x :: t ∧ 0x6B ≤ x.toNat ∧ x.toNat ≤ 0x70 := by
  have hn : c.toNat < 32 := by
    unfold Illegible at hc
    simp only [List.mem_cons, List.not_mem_nil, or_false] at hc
    omega
  have hb := illegible_past_f ⟨c.toNat, hn⟩
  simp only [ofNat_toNat_char] at hb
  obtain ⟨h1, x, h2, h3, h4⟩ := hb hc
  generalize utf8 (rend c) = l at *
  match l, h1, h2 with
  | a :: b :: y :: t, h1, h2 =>
    simp at h1 h2
    exact ⟨x, t, by rw [h1.1, h1.2, h2], h3, h4⟩

theorem render_spoiled (t : Str) : GoodOrSpoiled (utf8 (render t)) := by
  induction t with
  | nil => exact .inl ⟨[], nofun, rfl⟩
  | cons c t ih =>
    have e : utf8 (render (c :: t)) = utf8 (rend c) ++ utf8 (render t) := by rw [← utf8_append]; rfl
    rw [e]
    by_cases hc : Illegible c
    · obtain ⟨x, y, h1, h2, h3⟩ := illegible_rend hc
      exact .inr ⟨[], x, y ++ utf8 (render t), nofun, by rw [h1]; rfl, h2, h3⟩
    · obtain ⟨h1, h2, _⟩ := wItem_facts hc
      have h3 : utf8 (rend c) = (wItem c).bytes := by rw [← h2, Item.utf8_chars h1]
      rw [h3]
      rcases ih with ⟨is, hv, e⟩ | ⟨is, x, y, hv, e, h4, h5⟩
      · exact .inl ⟨wItem c :: is, ItemsValid.cons.mpr ⟨h1, hv⟩, by rw [e, bodyBytes_cons]⟩
      · exact .inr ⟨wItem c :: is, x, y, ItemsValid.cons.mpr ⟨h1, hv⟩, by rw [e, bodyBytes_cons]; simp, h4, h5⟩

theorem obtainable_spoiled {s : JsonString} (h : Obtainable s) (hr : s.asJson = .ok (renderedBody s)) : GoodOrSpoiled (utf8 (renderedBody s)) := by
  obtain ⟨t, ht⟩ := obtainable_shape h
  rcases shape_asJson ht hr with ⟨is, hv, _, e, _⟩ | e
  · rw [e, utf8_bodyChars hv]; exact .inl ⟨is, hv, rfl⟩
  · rw [e]; exact render_spoiled t

end
end JustJson
