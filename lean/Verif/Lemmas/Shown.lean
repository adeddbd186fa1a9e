import Verif.Model.Shown
/-! # What `Debug` writes can be read back -/

namespace JustJson

set_option linter.unusedSectionVars false

/-! ## Words -/

/-- letters, digits and `_` -/
def wordChar (c : Char) : Bool := c.isAlphanum || c == '_'

/-- a non-empty word -/
def IsWord (s : Str) : Prop := s ≠ [] ∧ ∀ c ∈ s, wordChar c = true

/-- what follows does not go on with the word -/
def Stops (r : Str) : Prop := ∀ c, r.head? = some c → wordChar c = false

theorem run_split {P : Char → Bool} : ∀ {a b x y : Str}, (∀ c ∈ a, P c = true) → (∀ c ∈ b, P c = true) →
    (∀ c, x.head? = some c → P c = false) → (∀ c, y.head? = some c → P c = false) → a ++ x = b ++ y → a = b ∧ x = y
  | [], [], x, y, _, _, _, _, h => ⟨rfl, h⟩
  | [], d :: b, x, y, _, hb, hx, _, h => by
    have h : x = d :: (b ++ y) := h
    have h1 := hx d (by rw [h]; rfl)
    rw [hb d (by simp)] at h1
    cases h1
  | c :: a, [], x, y, ha, _, _, hy, h => by
    have h : c :: (a ++ x) = y := h
    have h1 := hy c (by rw [← h]; rfl)
    rw [ha c (by simp)] at h1
    cases h1
  | c :: a, d :: b, x, y, ha, hb, hx, hy, h => by
    injection h with h1 h2
    obtain ⟨e1, e2⟩ := run_split (fun c hc => ha c (by simp [hc])) (fun c hc => hb c (by simp [hc])) hx hy h2
    exact ⟨by rw [h1, e1], e2⟩

theorem shownWord_split {a b x y : Str} (ha : IsWord a) (hb : IsWord b) (hx : Stops x) (hy : Stops y) (h : a ++ x = b ++ y) :
    a = b ∧ x = y := run_split ha.2 hb.2 hx hy h

/-! ## Quoted texts -/

/-- a hexadecimal digit as core writes it -/
def isHexChar (c : Char) : Bool := c.isDigit || c == 'a' || c == 'b' || c == 'c' || c == 'd' || c == 'e' || c == 'f'

theorem digitChar_hex : ∀ d, d < 16 → isHexChar (Nat.digitChar d) = true := by decide

theorem digitChar_inj16 : ∀ a, a < 16 → ∀ b, b < 16 → Nat.digitChar a = Nat.digitChar b → a = b := by decide

theorem toDigits16_hex : ∀ n : Nat, ∀ c ∈ Nat.toDigits 16 n, isHexChar c = true := by
  intro n
  induction n using Nat.strongRecOn with
  | ind n ih =>
    intro c hc
    by_cases hn : n < 16
    · rw [Nat.toDigits_of_lt_base hn, List.mem_singleton] at hc
      subst hc
      exact digitChar_hex n hn
    · rw [Nat.toDigits_of_base_le (by decide) (by omega), List.mem_append] at hc
      rcases hc with hc | hc
      · exact ih (n / 16) (by omega) c hc
      · rw [List.mem_singleton] at hc
        subst hc
        exact digitChar_hex _ (Nat.mod_lt _ (by decide))

theorem toDigits16_inj : ∀ n m : Nat, Nat.toDigits 16 n = Nat.toDigits 16 m → n = m := by
  intro n
  induction n using Nat.strongRecOn with
  | ind n ih =>
    intro m h
    have hne : ∀ k, Nat.toDigits 16 k ≠ [] := fun k => Nat.toDigits_ne_nil
    by_cases hn : n < 16
    · rw [Nat.toDigits_of_lt_base hn] at h
      by_cases hm : m < 16
      · rw [Nat.toDigits_of_lt_base hm] at h
        exact digitChar_inj16 n hn m hm (by simpa using h)
      · rw [Nat.toDigits_of_base_le (by decide) (by omega)] at h
        have := congrArg List.length h
        have h2 := hne (m / 16)
        cases hd : Nat.toDigits 16 (m / 16) with
        | nil => exact absurd hd h2
        | cons _ _ => rw [hd] at this; simp at this
    · rw [Nat.toDigits_of_base_le (by decide) (by omega)] at h
      by_cases hm : m < 16
      · rw [Nat.toDigits_of_lt_base hm] at h
        have := congrArg List.length h
        have h2 := hne (n / 16)
        cases hd : Nat.toDigits 16 (n / 16) with
        | nil => exact absurd hd h2
        | cons _ _ => rw [hd] at this; simp at this
      · rw [Nat.toDigits_of_base_le (n := m) (by decide) (by omega)] at h
        obtain ⟨h1, h2⟩ := List.append_inj' h rfl
        have e1 := ih (n / 16) (by omega) (m / 16) h1
        have e2 := digitChar_inj16 (n % 16) (Nat.mod_lt _ (by decide)) (m % 16) (Nat.mod_lt _ (by decide)) (by simpa using h2)
        omega

section
variable {plain : Char → Bool}

/-- the six characters with an escape of their own -/
def ownEscape (c : Char) : Option Char :=
  if c = Char.ofNat 0 then some '0' else if c = '\t' then some 't' else if c = '\r' then some 'r' else if c = '\n' then some 'n'
  else if c = '\\' then some '\\' else if c = '"' then some '"' else none

theorem escapeDebug_eq (c : Char) : escapeDebug plain c = match ownEscape c with
    | some e => ['\\', e]
    | none => if plain c then [c] else '\\' :: 'u' :: '{' :: (Nat.toDigits 16 c.toNat ++ ['}']) := by
  unfold escapeDebug ownEscape
  by_cases h0 : c = Char.ofNat 0
  · rw [if_pos h0, if_pos h0]
  rw [if_neg h0, if_neg h0]
  by_cases h1 : c = '\t'
  · rw [if_pos h1, if_pos h1]
  rw [if_neg h1, if_neg h1]
  by_cases h2 : c = '\r'
  · rw [if_pos h2, if_pos h2]
  rw [if_neg h2, if_neg h2]
  by_cases h3 : c = '\n'
  · rw [if_pos h3, if_pos h3]
  rw [if_neg h3, if_neg h3]
  by_cases h4 : c = '\\'
  · rw [if_pos h4, if_pos h4]
  rw [if_neg h4, if_neg h4]
  by_cases h5 : c = '"'
  · rw [if_pos h5, if_pos h5]
  rw [if_neg h5, if_neg h5]
  rfl

theorem ownEscape_some {c e : Char} (h : ownEscape c = some e) : e ≠ 'u' ∧ e ≠ '\n' ∧
    ((e = '0' ∧ c = Char.ofNat 0) ∨ (e = 't' ∧ c = '\t') ∨ (e = 'r' ∧ c = '\r') ∨ (e = 'n' ∧ c = '\n') ∨ (e = '\\' ∧ c = '\\')
      ∨ (e = '"' ∧ c = '"')) := by
  unfold ownEscape at h
  split at h
  · cases h; refine ⟨by decide, by decide, .inl ⟨rfl, by assumption⟩⟩
  split at h
  · cases h; refine ⟨by decide, by decide, .inr (.inl ⟨rfl, by assumption⟩)⟩
  split at h
  · cases h; refine ⟨by decide, by decide, .inr (.inr (.inl ⟨rfl, by assumption⟩))⟩
  split at h
  · cases h; refine ⟨by decide, by decide, .inr (.inr (.inr (.inl ⟨rfl, by assumption⟩)))⟩
  split at h
  · cases h; refine ⟨by decide, by decide, .inr (.inr (.inr (.inr (.inl ⟨rfl, by assumption⟩))))⟩
  split at h
  · cases h; refine ⟨by decide, by decide, .inr (.inr (.inr (.inr (.inr ⟨rfl, by assumption⟩))))⟩
  · cases h

theorem ownEscape_none {c : Char} (h : ownEscape c = none) : c ≠ '\\' ∧ c ≠ '"' ∧ c ≠ '\n' := by
  unfold ownEscape at h
  refine ⟨?_, ?_, ?_⟩ <;> (rintro rfl; revert h; decide)

theorem ownEscape_inj {c d e : Char} (h1 : ownEscape c = some e) (h2 : ownEscape d = some e) : c = d := by
  obtain ⟨-, -, h1⟩ := ownEscape_some h1
  obtain ⟨-, -, h2⟩ := ownEscape_some h2
  rcases h1 with ⟨rfl, rfl⟩ | ⟨rfl, rfl⟩ | ⟨rfl, rfl⟩ | ⟨rfl, rfl⟩ | ⟨rfl, rfl⟩ | ⟨rfl, rfl⟩ <;>
  rcases h2 with ⟨h, rfl⟩ | ⟨h, rfl⟩ | ⟨h, rfl⟩ | ⟨h, rfl⟩ | ⟨h, rfl⟩ | ⟨h, rfl⟩ <;>
  first | rfl | (exact absurd h (by decide))

theorem escape_split {c d : Char} {a b : Str} (h : escapeDebug plain c ++ a = escapeDebug plain d ++ b) : c = d ∧ a = b := by
  rw [escapeDebug_eq, escapeDebug_eq] at h
  cases hc : ownEscape c with
  | some e =>
    rw [hc] at h
    cases hd : ownEscape d with
    | some f =>
      rw [hd] at h
      have h : '\\' :: e :: a = '\\' :: f :: b := h
      injection h with _ h
      injection h with h1 h2
      subst h1
      exact ⟨ownEscape_inj hc hd, h2⟩
    | none =>
      rw [hd] at h
      by_cases hp : plain d
      · have h : '\\' :: e :: a = d :: b := by simpa [hp] using h
        injection h with h1 h2
        exact absurd h1.symm (ownEscape_none hd).1
      · have h : '\\' :: e :: a = '\\' :: 'u' :: ('{' :: (Nat.toDigits 16 d.toNat ++ ['}']) ++ b) := by simpa [hp] using h
        injection h with _ h
        injection h with h1 h2
        exact absurd h1 (ownEscape_some hc).1
  | none =>
    rw [hc] at h
    cases hd : ownEscape d with
    | some f =>
      rw [hd] at h
      by_cases hp : plain c
      · have h : c :: a = '\\' :: f :: b := by simpa [hp] using h
        injection h with h1 h2
        exact absurd h1 (ownEscape_none hc).1
      · have h : '\\' :: 'u' :: ('{' :: (Nat.toDigits 16 c.toNat ++ ['}']) ++ a) = '\\' :: f :: b := by simpa [hp] using h
        injection h with _ h
        injection h with h1 h2
        exact absurd h1.symm (ownEscape_some hd).1
    | none =>
      rw [hd] at h
      by_cases hp : plain c <;> by_cases hq : plain d
      · have h : c :: a = d :: b := by simpa [hp, hq] using h
        injection h with h1 h2
        exact ⟨h1, h2⟩
      · have h : c :: a = '\\' :: 'u' :: ('{' :: (Nat.toDigits 16 d.toNat ++ ['}']) ++ b) := by simpa [hp, hq] using h
        injection h with h1 h2
        exact absurd h1 (ownEscape_none hc).1
      · have h : '\\' :: 'u' :: ('{' :: (Nat.toDigits 16 c.toNat ++ ['}']) ++ a) = d :: b := by simpa [hp, hq] using h
        injection h with h1 h2
        exact absurd h1.symm (ownEscape_none hd).1
      · have h : '\\' :: 'u' :: '{' :: (Nat.toDigits 16 c.toNat ++ '}' :: a) = '\\' :: 'u' :: '{' :: (Nat.toDigits 16 d.toNat ++ '}' :: b) := by
          simpa [hp, hq] using h
        injection h with _ h
        injection h with _ h
        injection h with _ h
        obtain ⟨h1, h2⟩ := run_split (P := isHexChar) (toDigits16_hex _) (toDigits16_hex _)
          (fun x hx => by cases hx; decide) (fun x hx => by cases hx; decide) h
        injection h2 with _ h2
        have := toDigits16_inj _ _ h1
        exact ⟨Char.ext (UInt32.toNat_inj.mp this), h2⟩

theorem escape_head (c : Char) : ∃ x r, escapeDebug plain c = x :: r ∧ x ≠ '"' := by
  rw [escapeDebug_eq]
  cases hc : ownEscape c with
  | some e => exact ⟨_, _, rfl, by decide⟩
  | none =>
    by_cases hp : plain c
    · exact ⟨c, [], by simp [hp], (ownEscape_none hc).2.1⟩
    · exact ⟨'\\', _, by simp [hp]; rfl, by decide⟩

theorem escape_no_newline (c : Char) : '\n' ∉ escapeDebug plain c := by
  rw [escapeDebug_eq]
  cases hc : ownEscape c with
  | some e =>
    have := (ownEscape_some hc).2.1
    simp only [List.mem_cons, List.not_mem_nil, or_false, not_or]
    exact ⟨by decide, fun h => this h.symm⟩
  | none =>
    by_cases hp : plain c
    · simp only [hp, if_true, List.mem_singleton]
      exact fun h => (ownEscape_none hc).2.2 h.symm
    · simp only [hp, if_false, Bool.false_eq_true, List.mem_cons, List.mem_append, List.not_mem_nil, or_false, not_or]
      refine ⟨by decide, by decide, by decide, fun h => ?_, by decide⟩
      have := toDigits16_hex _ _ h
      revert this
      decide

theorem body_split : ∀ {s t r u : Str}, s.flatMap (escapeDebug plain) ++ '"' :: r = t.flatMap (escapeDebug plain) ++ '"' :: u → s = t ∧ r = u
  | [], [], r, u, h => by injection h with _ h; exact ⟨rfl, h⟩
  | [], d :: t, r, u, h => by
    obtain ⟨x, y, e, hx⟩ := escape_head (plain := plain) d
    rw [List.flatMap_cons, e] at h
    injection h with h _
    exact absurd h.symm hx
  | c :: s, [], r, u, h => by
    obtain ⟨x, y, e, hx⟩ := escape_head (plain := plain) c
    rw [List.flatMap_cons, e] at h
    injection h with h _
    exact absurd h hx
  | c :: s, d :: t, r, u, h => by
    rw [List.flatMap_cons, List.flatMap_cons, List.append_assoc, List.append_assoc] at h
    obtain ⟨h1, h2⟩ := escape_split h
    obtain ⟨h3, h4⟩ := body_split h2
    exact ⟨by rw [h1, h3], h4⟩

theorem quote_split {s t r u : Str} (h : quoteDebug plain s ++ r = quoteDebug plain t ++ u) : s = t ∧ r = u := by
  unfold quoteDebug at h
  simp only [List.cons_append, List.append_assoc, List.nil_append] at h
  injection h with _ h
  exact body_split h

theorem quote_no_newline (s : Str) : '\n' ∉ quoteDebug plain s := by
  unfold quoteDebug
  simp only [List.mem_cons, List.mem_append, List.mem_flatMap, List.not_mem_nil, or_false, not_or]
  refine ⟨by decide, ?_, by decide⟩
  rintro ⟨c, _, h⟩
  exact escape_no_newline c h

/-! ## Trees -/

mutual
/-- The texts are words or quoted, the names are words, and only lists are empty. -/
def Shown.Ok (plain : Char → Bool) : Shown → Prop
  | .text s => IsWord s ∨ ∃ t, s = quoteDebug plain t
  | .tuple n fs => IsWord n ∧ fs ≠ [] ∧ Shown.OkItems plain fs
  | .struct n fs => IsWord n ∧ fs ≠ [] ∧ Shown.OkFields plain fs
  | .list items => Shown.OkItems plain items
/-- all of them -/
def Shown.OkItems (plain : Char → Bool) : List Shown → Prop
  | [] => True
  | s :: ss => s.Ok plain ∧ Shown.OkItems plain ss
/-- all of them, and their names are words -/
def Shown.OkFields (plain : Char → Bool) : List (Str × Shown) → Prop
  | [] => True
  | (n, s) :: fs => IsWord n ∧ s.Ok plain ∧ Shown.OkFields plain fs
end

/-- a new line at a level -/
def nlAt (l : Nat) : Str := '\n' :: List.replicate (4 * l) ' '
/-- after an opening bracket -/
def gapAt (a : Bool) (l : Nat) : Str := if a then nlAt l else []
/-- after an opening brace -/
def gapBrace (a : Bool) (l : Nat) : Str := if a then nlAt l else [' ']
/-- between two items -/
def sepAt (a : Bool) (l : Nat) : Str := ',' :: (if a then nlAt l else [' '])
/-- a closing bracket -/
def finAt (a : Bool) (l : Nat) (c : Char) : Str := if a then ',' :: (nlAt l ++ [c]) else [c]
/-- a closing brace -/
def finBrace (a : Bool) (l : Nat) : Str := if a then ',' :: (nlAt l ++ ['}']) else [' ', '}']

mutual
/-- both forms, at a level of indentation -/
def Shown.at' (a : Bool) (l : Nat) : Shown → Str
  | .text s => s
  | .tuple n fs => n ++ '(' :: (gapAt a (l + 1) ++ (Shown.atItems a (l + 1) fs ++ finAt a l ')'))
  | .struct n fs => n ++ ' ' :: '{' :: (gapBrace a (l + 1) ++ (Shown.atFields a (l + 1) fs ++ finBrace a l))
  | .list [] => ['[', ']']
  | .list (s :: ss) => '[' :: (gapAt a (l + 1) ++ (Shown.atItems a (l + 1) (s :: ss) ++ finAt a l ']'))
/-- items -/
def Shown.atItems (a : Bool) (l : Nat) : List Shown → Str
  | [] => []
  | [s] => s.at' a l
  | s :: ss => s.at' a l ++ (sepAt a l ++ Shown.atItems a l ss)
/-- fields -/
def Shown.atFields (a : Bool) (l : Nat) : List (Str × Shown) → Str
  | [] => []
  | [(n, s)] => n ++ ':' :: ' ' :: s.at' a l
  | (n, s) :: fs => n ++ ':' :: ' ' :: (s.at' a l ++ (sepAt a l ++ Shown.atFields a l fs))
end

theorem atItems_two (a : Bool) (l : Nat) (s t : Shown) (ss : List Shown) :
    Shown.atItems a l (s :: t :: ss) = s.at' a l ++ (sepAt a l ++ Shown.atItems a l (t :: ss)) := by
  rw [Shown.atItems]; simp
theorem atFields_two (a : Bool) (l : Nat) (n : Str) (s : Shown) (t : Str × Shown) (ss : List (Str × Shown)) :
    Shown.atFields a l ((n, s) :: t :: ss) = n ++ ':' :: ' ' :: (s.at' a l ++ (sepAt a l ++ Shown.atFields a l (t :: ss))) := by
  rw [Shown.atFields]; simp

/-- what may follow a value: a comma, a closing bracket, or a closing brace -/
def Follow (r : Str) : Prop := r = [] ∨ (∃ t, r = ',' :: t) ∨ (∃ t, r = ')' :: t) ∨ (∃ t, r = ']' :: t) ∨ ∃ t, r = ' ' :: '}' :: t

theorem Follow.stops {r : Str} (h : Follow r) : Stops r := by
  intro c hc
  rcases h with rfl | ⟨t, rfl⟩ | ⟨t, rfl⟩ | ⟨t, rfl⟩ | ⟨t, rfl⟩ <;> cases hc <;> decide

theorem follow_sep (a : Bool) (l : Nat) (r : Str) : Follow (sepAt a l ++ r) := .inr (.inl ⟨_, rfl⟩)

theorem follow_fin (a : Bool) (l : Nat) {c : Char} (hc : c = ')' ∨ c = ']') (r : Str) : Follow (finAt a l c ++ r) := by
  cases a with
  | true => exact .inr (.inl ⟨_, rfl⟩)
  | false =>
    rcases hc with rfl | rfl
    · exact .inr (.inr (.inl ⟨_, rfl⟩))
    · exact .inr (.inr (.inr (.inl ⟨_, rfl⟩)))

theorem follow_brace (a : Bool) (l : Nat) (r : Str) : Follow (finBrace a l ++ r) := by
  cases a with
  | true => exact .inr (.inl ⟨_, rfl⟩)
  | false => exact .inr (.inr (.inr (.inr ⟨_, rfl⟩)))

theorem nl_ne {l : Nat} {c : Char} {x y : Str} (hc : c ≠ ' ') : nlAt (l + 1) ++ x ≠ nlAt l ++ c :: y := by
  intro h
  unfold nlAt at h
  have e : 4 * (l + 1) = 4 * l + 4 := by omega
  rw [e, ← List.replicate_append_replicate, List.cons_append, List.cons_append, List.append_assoc] at h
  injection h with _ h
  have := List.append_cancel_left h
  injection this with h1 _
  exact hc h1.symm

theorem sep_ne_fin {a : Bool} {l : Nat} {c : Char} {x y : Str} (hc : c = ')' ∨ c = ']') : sepAt a (l + 1) ++ x ≠ finAt a l c ++ y := by
  cases a with
  | true =>
    intro h
    have h : ',' :: (nlAt (l + 1) ++ x) = ',' :: (nlAt l ++ c :: y) := by simpa [sepAt, finAt] using h
    injection h with _ h
    exact nl_ne (by rcases hc with rfl | rfl <;> decide) h
  | false =>
    intro h
    have h : ',' :: ' ' :: x = c :: y := h
    injection h with h _
    rcases hc with rfl | rfl <;> exact absurd h (by decide)

theorem sep_ne_brace {a : Bool} {l : Nat} {x y : Str} : sepAt a (l + 1) ++ x ≠ finBrace a l ++ y := by
  cases a with
  | true =>
    intro h
    have h : ',' :: (nlAt (l + 1) ++ x) = ',' :: (nlAt l ++ '}' :: y) := by simpa [sepAt, finBrace] using h
    injection h with _ h
    exact nl_ne (by decide) h
  | false =>
    intro h
    have h : ',' :: ' ' :: x = ' ' :: '}' :: y := h
    injection h with h _
    exact absurd h (by decide)

/-- A word starts with a word character. -/
theorem word_head {w : Str} (h : IsWord w) : ∃ c r, w = c :: r ∧ wordChar c = true := by
  cases w with
  | nil => exact absurd rfl h.1
  | cons c r => exact ⟨c, r, rfl, h.2 c (by simp)⟩

theorem word_not_quote {w x s y : Str} (h : IsWord w) : w ++ x ≠ quoteDebug plain s ++ y := by
  obtain ⟨c, r, rfl, hc⟩ := word_head h
  intro e
  have e : c :: (r ++ x) = '"' :: (s.flatMap (escapeDebug plain) ++ ['"'] ++ y) := e
  injection e with e _
  subst e
  exact absurd hc (by decide)

theorem word_not_bracket {w x y : Str} (h : IsWord w) : w ++ x ≠ '[' :: y := by
  obtain ⟨c, r, rfl, hc⟩ := word_head h
  intro e
  injection e with e _
  subst e
  exact absurd hc (by decide)

theorem quote_not_bracket {s x y : Str} : quoteDebug plain s ++ x ≠ '[' :: y := by
  intro e
  have e : '"' :: (s.flatMap (escapeDebug plain) ++ ['"'] ++ x) = '[' :: y := e
  injection e with e _
  exact absurd e (by decide)

theorem stops_paren (x : Str) : Stops ('(' :: x) := by intro c hc; cases hc; decide
theorem stops_space (x : Str) : Stops (' ' :: x) := by intro c hc; cases hc; decide
theorem stops_colon (x : Str) : Stops (':' :: x) := by intro c hc; cases hc; decide

theorem follow_not_paren {x : Str} : ¬ Follow ('(' :: x) := by
  rintro (h | ⟨t, h⟩ | ⟨t, h⟩ | ⟨t, h⟩ | ⟨t, h⟩)
  · cases h
  all_goals (injection h with h _; exact absurd h (by decide))
theorem follow_not_brace {x : Str} : ¬ Follow (' ' :: '{' :: x) := by
  rintro (h | ⟨t, h⟩ | ⟨t, h⟩ | ⟨t, h⟩ | ⟨t, h⟩)
  · cases h
  · injection h with h _; exact absurd h (by decide)
  · injection h with h _; exact absurd h (by decide)
  · injection h with h _; exact absurd h (by decide)
  · injection h with _ h; injection h with h _; exact absurd h (by decide)

/-- A value does not start with a closing bracket, even after a new line. -/
theorem at_head {s : Shown} (h : s.Ok plain) (a : Bool) (l : Nat) : ∃ c r, s.at' a l = c :: r ∧ c ≠ ']' := by
  have hw : ∀ n : Str, IsWord n → ∀ x : Str, ∃ c r, n ++ x = c :: r ∧ c ≠ ']' := by
    intro n hn x
    obtain ⟨c, r, rfl, hc⟩ := word_head hn
    exact ⟨c, _, rfl, by rintro rfl; revert hc; decide⟩
  match s with
  | .text t =>
    rw [Shown.Ok] at h
    rcases h with h | ⟨t, rfl⟩
    · have := hw t h []
      simpa [Shown.at'] using this
    · exact ⟨_, _, rfl, by decide⟩
  | .tuple n fs => rw [Shown.Ok] at h; exact hw n h.1 _
  | .struct n fs => rw [Shown.Ok] at h; exact hw n h.1 _
  | .list [] => exact ⟨_, _, rfl, by decide⟩
  | .list (x :: xs) => exact ⟨_, _, rfl, by decide⟩

theorem gap_head {s : Shown} {ss : List Shown} (h : s.Ok plain) (a : Bool) (l : Nat) (x y : Str) :
    gapAt a l ++ (Shown.atItems a l (s :: ss) ++ x) ≠ ']' :: y := by
  cases a with
  | true => intro h; injection h with h _; exact absurd h (by decide)
  | false =>
    obtain ⟨c, r, e, hc⟩ := at_head h false l
    cases ss with
    | nil => rw [Shown.atItems, e]; intro h; injection h with h _; exact hc h
    | cons t ts => rw [Shown.atItems, e]; intro h; injection h with h _; exact hc h; simp

mutual
theorem at_split {a : Bool} {l : Nat} : ∀ {s t : Shown} {x y : Str}, s.Ok plain → t.Ok plain → Follow x → Follow y →
    s.at' a l ++ x = t.at' a l ++ y → s = t ∧ x = y
  | .text s, .text t, x, y, hs, ht, hx, hy, h => by
    rw [Shown.at', Shown.at'] at h
    simp only [Shown.Ok] at hs ht
    rcases hs with hs | ⟨s, rfl⟩ <;> rcases ht with ht | ⟨t, rfl⟩
    · obtain ⟨rfl, e⟩ := shownWord_split hs ht hx.stops hy.stops h
      exact ⟨rfl, e⟩
    · exact absurd h (word_not_quote hs)
    · exact absurd h.symm (word_not_quote ht)
    · obtain ⟨rfl, e⟩ := quote_split h
      exact ⟨rfl, e⟩
  | .text s, .tuple n fs, x, y, hs, ht, hx, hy, h => by
    rw [Shown.at', Shown.at', List.append_assoc] at h
    simp only [Shown.Ok] at hs ht
    rcases hs with hs | ⟨s, rfl⟩
    · obtain ⟨rfl, rfl⟩ := shownWord_split hs ht.1 hx.stops (stops_paren _) h
      exact absurd hx follow_not_paren
    · exact absurd h.symm (word_not_quote ht.1)
  | .text s, .struct n fs, x, y, hs, ht, hx, hy, h => by
    rw [Shown.at', Shown.at', List.append_assoc] at h
    simp only [Shown.Ok] at hs ht
    rcases hs with hs | ⟨s, rfl⟩
    · obtain ⟨rfl, rfl⟩ := shownWord_split hs ht.1 hx.stops (stops_space _) h
      exact absurd hx follow_not_brace
    · exact absurd h.symm (word_not_quote ht.1)
  | .text s, .list [], x, y, hs, ht, hx, hy, h => by
    rw [Shown.at', Shown.at'] at h
    simp only [Shown.Ok] at hs
    rcases hs with hs | ⟨s, rfl⟩
    · exact absurd h (word_not_bracket hs)
    · exact absurd h quote_not_bracket
  | .text s, .list (_ :: _), x, y, hs, ht, hx, hy, h => by
    rw [Shown.at', Shown.at'] at h
    simp only [Shown.Ok] at hs
    rcases hs with hs | ⟨s, rfl⟩
    · exact absurd h (word_not_bracket hs)
    · exact absurd h quote_not_bracket
  | .tuple n fs, .text t, x, y, hs, ht, hx, hy, h => by
    rw [Shown.at', Shown.at', List.append_assoc] at h
    simp only [Shown.Ok] at hs ht
    rcases ht with ht | ⟨t, rfl⟩
    · obtain ⟨rfl, rfl⟩ := shownWord_split hs.1 ht (stops_paren _) hy.stops h
      exact absurd hy follow_not_paren
    · exact absurd h (word_not_quote hs.1)
  | .tuple n fs, .tuple m gs, x, y, hs, ht, hx, hy, h => by
    rw [Shown.at', Shown.at', List.append_assoc, List.append_assoc] at h
    simp only [Shown.Ok] at hs ht
    obtain ⟨rfl, q⟩ := shownWord_split hs.1 ht.1 (stops_paren _) (stops_paren _) h
    clear h
    have h := q
    injection h with _ h
    simp only [List.append_eq] at h
    rw [List.append_assoc, List.append_assoc, List.append_assoc, List.append_assoc] at h
    obtain ⟨rfl, e⟩ := shownItems_split (c := ')') (.inl rfl) hs.2.1 ht.2.1 hs.2.2 ht.2.2 (List.append_cancel_left h)
    exact ⟨rfl, e⟩
  | .tuple n fs, .struct m gs, x, y, hs, ht, hx, hy, h => by
    rw [Shown.at', Shown.at', List.append_assoc, List.append_assoc] at h
    simp only [Shown.Ok] at hs ht
    obtain ⟨rfl, q⟩ := shownWord_split hs.1 ht.1 (stops_paren _) (stops_space _) h
    clear h
    have h := q
    injection h with h _
    exact absurd h (by decide)
  | .tuple n fs, .list [], x, y, hs, ht, hx, hy, h => by
    rw [Shown.at', Shown.at', List.append_assoc] at h
    simp only [Shown.Ok] at hs
    exact absurd h (word_not_bracket hs.1)
  | .tuple n fs, .list (_ :: _), x, y, hs, ht, hx, hy, h => by
    rw [Shown.at', Shown.at', List.append_assoc] at h
    simp only [Shown.Ok] at hs
    exact absurd h (word_not_bracket hs.1)
  | .struct n fs, .text t, x, y, hs, ht, hx, hy, h => by
    rw [Shown.at', Shown.at', List.append_assoc] at h
    simp only [Shown.Ok] at hs ht
    rcases ht with ht | ⟨t, rfl⟩
    · obtain ⟨rfl, rfl⟩ := shownWord_split hs.1 ht (stops_space _) hy.stops h
      exact absurd hy follow_not_brace
    · exact absurd h (word_not_quote hs.1)
  | .struct n fs, .tuple m gs, x, y, hs, ht, hx, hy, h => by
    rw [Shown.at', Shown.at', List.append_assoc, List.append_assoc] at h
    simp only [Shown.Ok] at hs ht
    obtain ⟨rfl, q⟩ := shownWord_split hs.1 ht.1 (stops_space _) (stops_paren _) h
    clear h
    have h := q
    injection h with h _
    exact absurd h (by decide)
  | .struct n fs, .struct m gs, x, y, hs, ht, hx, hy, h => by
    rw [Shown.at', Shown.at', List.append_assoc, List.append_assoc] at h
    simp only [Shown.Ok] at hs ht
    obtain ⟨rfl, q⟩ := shownWord_split hs.1 ht.1 (stops_space _) (stops_space _) h
    clear h
    have h := q
    injection h with _ h
    injection h with _ h
    simp only [List.append_eq] at h
    rw [List.append_assoc, List.append_assoc, List.append_assoc, List.append_assoc] at h
    obtain ⟨rfl, e⟩ := shownFields_split hs.2.1 ht.2.1 hs.2.2 ht.2.2 (List.append_cancel_left h)
    exact ⟨rfl, e⟩
  | .struct n fs, .list [], x, y, hs, ht, hx, hy, h => by
    rw [Shown.at', Shown.at', List.append_assoc] at h
    simp only [Shown.Ok] at hs
    exact absurd h (word_not_bracket hs.1)
  | .struct n fs, .list (_ :: _), x, y, hs, ht, hx, hy, h => by
    rw [Shown.at', Shown.at', List.append_assoc] at h
    simp only [Shown.Ok] at hs
    exact absurd h (word_not_bracket hs.1)
  | .list [], .text t, x, y, hs, ht, hx, hy, h => by
    rw [Shown.at', Shown.at'] at h
    simp only [Shown.Ok] at ht
    rcases ht with ht | ⟨t, rfl⟩
    · exact absurd h.symm (word_not_bracket ht)
    · exact absurd h.symm quote_not_bracket
  | .list (_ :: _), .text t, x, y, hs, ht, hx, hy, h => by
    rw [Shown.at', Shown.at'] at h
    simp only [Shown.Ok] at ht
    rcases ht with ht | ⟨t, rfl⟩
    · exact absurd h.symm (word_not_bracket ht)
    · exact absurd h.symm quote_not_bracket
  | .list [], .tuple n fs, x, y, hs, ht, hx, hy, h => by
    rw [Shown.at', Shown.at', List.append_assoc] at h
    simp only [Shown.Ok] at ht
    exact absurd h.symm (word_not_bracket ht.1)
  | .list (_ :: _), .tuple n fs, x, y, hs, ht, hx, hy, h => by
    rw [Shown.at', Shown.at', List.append_assoc] at h
    simp only [Shown.Ok] at ht
    exact absurd h.symm (word_not_bracket ht.1)
  | .list [], .struct n fs, x, y, hs, ht, hx, hy, h => by
    rw [Shown.at', Shown.at', List.append_assoc] at h
    simp only [Shown.Ok] at ht
    exact absurd h.symm (word_not_bracket ht.1)
  | .list (_ :: _), .struct n fs, x, y, hs, ht, hx, hy, h => by
    rw [Shown.at', Shown.at', List.append_assoc] at h
    simp only [Shown.Ok] at ht
    exact absurd h.symm (word_not_bracket ht.1)
  | .list [], .list [], x, y, hs, ht, hx, hy, h => by
    rw [Shown.at'] at h
    exact ⟨rfl, List.append_cancel_left h⟩
  | .list [], .list (t :: ts), x, y, hs, ht, hx, hy, h => by
    rw [Shown.at', Shown.at'] at h
    rw [Shown.Ok, Shown.OkItems] at ht
    injection h with _ h
    simp only [List.append_eq] at h
    rw [List.append_assoc, List.append_assoc] at h
    exact absurd h.symm (gap_head ht.1 a (l + 1) _ _)
  | .list (s :: ss), .list [], x, y, hs, ht, hx, hy, h => by
    rw [Shown.at', Shown.at'] at h
    rw [Shown.Ok, Shown.OkItems] at hs
    injection h with _ h
    simp only [List.append_eq] at h
    rw [List.append_assoc, List.append_assoc] at h
    exact absurd h (gap_head hs.1 a (l + 1) _ _)
  | .list (s :: ss), .list (t :: ts), x, y, hs, ht, hx, hy, h => by
    rw [Shown.at', Shown.at'] at h
    simp only [Shown.Ok] at hs ht
    injection h with _ h
    simp only [List.append_eq] at h
    rw [List.append_assoc, List.append_assoc, List.append_assoc, List.append_assoc] at h
    obtain ⟨e1, e⟩ := shownItems_split (c := ']') (.inr rfl) (by simp) (by simp) hs ht (List.append_cancel_left h)
    exact ⟨by rw [e1], e⟩
theorem shownItems_split {a : Bool} {l : Nat} {c : Char} (hc : c = ')' ∨ c = ']') : ∀ {ss ts : List Shown} {x y : Str}, ss ≠ [] → ts ≠ [] →
    Shown.OkItems plain ss → Shown.OkItems plain ts →
    Shown.atItems a (l + 1) ss ++ (finAt a l c ++ x) = Shown.atItems a (l + 1) ts ++ (finAt a l c ++ y) → ss = ts ∧ x = y
  | [], _, _, _, h, _, _, _, _ => absurd rfl h
  | _, [], _, _, _, h, _, _, _ => absurd rfl h
  | [s], [t], x, y, _, _, hs, ht, h => by
    rw [Shown.OkItems] at hs ht
    rw [Shown.atItems, Shown.atItems] at h
    obtain ⟨rfl, e⟩ := at_split hs.1 ht.1 (follow_fin a l hc x) (follow_fin a l hc y) h
    exact ⟨rfl, List.append_cancel_left e⟩
  | [s], t :: t' :: ts, x, y, _, _, hs, ht, h => by
    rw [Shown.OkItems] at hs ht
    rw [Shown.atItems, Shown.atItems, List.append_assoc, List.append_assoc] at h
    · obtain ⟨rfl, e⟩ := at_split hs.1 ht.1 (follow_fin a l hc x) (follow_sep a _ _) h
      exact absurd e.symm (sep_ne_fin hc)
    · simp
  | s :: s' :: ss, [t], x, y, _, _, hs, ht, h => by
    rw [Shown.OkItems] at hs ht
    rw [Shown.atItems, Shown.atItems, List.append_assoc, List.append_assoc] at h
    · obtain ⟨rfl, e⟩ := at_split hs.1 ht.1 (follow_sep a _ _) (follow_fin a l hc y) h
      exact absurd e (sep_ne_fin hc)
    · simp
  | s :: s' :: ss, t :: t' :: ts, x, y, _, _, hs, ht, h => by
    rw [Shown.OkItems] at hs ht
    rw [atItems_two, atItems_two, List.append_assoc, List.append_assoc, List.append_assoc, List.append_assoc] at h
    · obtain ⟨rfl, e⟩ := at_split hs.1 ht.1 (follow_sep a _ _) (follow_sep a _ _) h
      obtain ⟨e1, e2⟩ := shownItems_split hc (by simp) (by simp) hs.2 ht.2 (List.append_cancel_left e)
      exact ⟨by rw [e1], e2⟩
theorem shownFields_split {a : Bool} {l : Nat} : ∀ {fs gs : List (Str × Shown)} {x y : Str}, fs ≠ [] → gs ≠ [] →
    Shown.OkFields plain fs → Shown.OkFields plain gs →
    Shown.atFields a (l + 1) fs ++ (finBrace a l ++ x) = Shown.atFields a (l + 1) gs ++ (finBrace a l ++ y) → fs = gs ∧ x = y
  | [], _, _, _, h, _, _, _, _ => absurd rfl h
  | _, [], _, _, _, h, _, _, _ => absurd rfl h
  | [(n, s)], [(m, t)], x, y, _, _, hs, ht, h => by
    rw [Shown.OkFields] at hs ht
    rw [Shown.atFields, Shown.atFields, List.append_assoc, List.append_assoc] at h
    obtain ⟨rfl, q⟩ := shownWord_split hs.1 ht.1 (stops_colon _) (stops_colon _) h
    clear h
    have h := q
    injection h with _ h
    injection h with _ h
    simp only [List.append_eq] at h
    obtain ⟨rfl, e⟩ := at_split hs.2.1 ht.2.1 (follow_brace a l x) (follow_brace a l y) h
    exact ⟨rfl, List.append_cancel_left e⟩
  | [(n, s)], (m, t) :: t' :: ts, x, y, _, _, hs, ht, h => by
    rw [Shown.OkFields] at hs ht
    rw [Shown.atFields, Shown.atFields, List.append_assoc, List.append_assoc] at h
    · obtain ⟨rfl, q⟩ := shownWord_split hs.1 ht.1 (stops_colon _) (stops_colon _) h
      clear h
      have h := q
      injection h with _ h
      injection h with _ h
      simp only [List.append_eq] at h
      rw [List.append_assoc, List.append_assoc] at h
      obtain ⟨rfl, e⟩ := at_split hs.2.1 ht.2.1 (follow_brace a l x) (follow_sep a _ _) h
      exact absurd e.symm sep_ne_brace
    · simp
  | (n, s) :: s' :: ss, [(m, t)], x, y, _, _, hs, ht, h => by
    rw [Shown.OkFields] at hs ht
    rw [Shown.atFields, Shown.atFields, List.append_assoc, List.append_assoc] at h
    · obtain ⟨rfl, q⟩ := shownWord_split hs.1 ht.1 (stops_colon _) (stops_colon _) h
      clear h
      have h := q
      injection h with _ h
      injection h with _ h
      simp only [List.append_eq] at h
      rw [List.append_assoc, List.append_assoc] at h
      obtain ⟨rfl, e⟩ := at_split hs.2.1 ht.2.1 (follow_sep a _ _) (follow_brace a l y) h
      exact absurd e sep_ne_brace
    · simp
  | (n, s) :: s' :: ss, (m, t) :: t' :: ts, x, y, _, _, hs, ht, h => by
    rw [Shown.OkFields] at hs ht
    rw [atFields_two, atFields_two, List.append_assoc, List.append_assoc] at h
    · obtain ⟨rfl, q⟩ := shownWord_split hs.1 ht.1 (stops_colon _) (stops_colon _) h
      clear h
      have h := q
      injection h with _ h
      injection h with _ h
      simp only [List.append_eq] at h
      rw [List.append_assoc, List.append_assoc, List.append_assoc, List.append_assoc] at h
      obtain ⟨rfl, e⟩ := at_split hs.2.1 ht.2.1 (follow_sep a _ _) (follow_sep a _ _) h
      obtain ⟨e1, e2⟩ := shownFields_split (by simp) (by simp) hs.2.2 ht.2.2 (List.append_cancel_left e)
      exact ⟨by rw [e1], e2⟩
end

/-! ## The two forms -/

mutual
theorem flat_at (l : Nat) : ∀ s : Shown, s.flat = s.at' false l
  | .text _ => rfl
  | .tuple n fs => by rw [Shown.flat, Shown.at', flatItems_at (l + 1) fs]; rfl
  | .struct n fs => by rw [Shown.flat, Shown.at', flatFields_at (l + 1) fs]; simp [gapBrace, finBrace]
  | .list [] => rfl
  | .list (s :: ss) => by rw [Shown.flat, Shown.at', flatItems_at (l + 1) (s :: ss)]; rfl
theorem flatItems_at (l : Nat) : ∀ ss : List Shown, Shown.flatItems ss = Shown.atItems false l ss
  | [] => rfl
  | [s] => by rw [Shown.flatItems, Shown.atItems, flat_at l s]
  | s :: t :: ss => by
    rw [atItems_two, Shown.flatItems, flat_at l s, flatItems_at l (t :: ss), List.append_assoc]
    · rfl
    · simp
theorem flatFields_at (l : Nat) : ∀ fs : List (Str × Shown), Shown.flatFields fs = Shown.atFields false l fs
  | [] => rfl
  | [(n, s)] => by rw [Shown.flatFields, Shown.atFields, flat_at l s, List.append_assoc]; rfl
  | (n, s) :: t :: fs => by
    rw [atFields_two, Shown.flatFields, flat_at l s, flatFields_at l (t :: fs)]
    · simp [sepAt]
    · simp
end

/-- four spaces after each new line -/
def shift (s : Str) : Str := s.flatMap fun c => if c = '\n' then ['\n', ' ', ' ', ' ', ' '] else [c]

theorem shift_append (a b : Str) : shift (a ++ b) = shift a ++ shift b := List.flatMap_append ..
theorem shift_cons {c : Char} (h : c ≠ '\n') (s : Str) : shift (c :: s) = c :: shift s := by
  unfold shift; rw [List.flatMap_cons, if_neg h]; rfl
theorem shift_self : ∀ {s : Str}, '\n' ∉ s → shift s = s
  | [], _ => rfl
  | c :: s, h => by
    rw [shift_cons (fun e => h (by simp [e])), shift_self (fun e => h (by simp [e]))]

theorem shift_nl (l : Nat) : shift (nlAt l) = nlAt (l + 1) := by
  unfold nlAt
  have h1 : shift ('\n' :: List.replicate (4 * l) ' ') = '\n' :: ' ' :: ' ' :: ' ' :: ' ' :: shift (List.replicate (4 * l) ' ') := rfl
  rw [h1, shift_self (by intro h; have := List.eq_of_mem_replicate h; revert this; decide)]
  have e : 4 * (l + 1) = 4 + 4 * l := by omega
  rw [e, ← List.replicate_append_replicate]
  rfl

theorem padText_comma : ∀ s : Str, padText false (s ++ [',', '\n']) = shift s ++ [',', '\n']
    ∧ padText true (s ++ [',', '\n']) = [' ', ' ', ' ', ' '] ++ (shift s ++ [',', '\n'])
  | [] => ⟨rfl, rfl⟩
  | c :: s => by
    obtain ⟨h1, h2⟩ := padText_comma s
    by_cases hc : c = '\n'
    · subst hc
      have e : shift ('\n' :: s) = '\n' :: ' ' :: ' ' :: ' ' :: ' ' :: shift s := rfl
      have k : padText false ('\n' :: s ++ [',', '\n']) = '\n' :: padText true (s ++ [',', '\n']) := rfl
      have k' : padText true ('\n' :: s ++ [',', '\n']) = ' ' :: ' ' :: ' ' :: ' ' :: '\n' :: padText true (s ++ [',', '\n']) := rfl
      rw [k, k', h2, e]
      exact ⟨rfl, rfl⟩
    · have hb : (c == '\n') = false := by simp [hc]
      have k : padText false (c :: s ++ [',', '\n']) = c :: padText false (s ++ [',', '\n']) := by
        rw [List.cons_append, padText, hb]; rfl
      have k' : padText true (c :: s ++ [',', '\n']) = ' ' :: ' ' :: ' ' :: ' ' :: c :: padText false (s ++ [',', '\n']) := by
        rw [List.cons_append, padText, hb]; rfl
      rw [k, k', h1, shift_cons hc]
      exact ⟨rfl, rfl⟩

theorem word_no_newline {w : Str} (h : IsWord w) : '\n' ∉ w := by
  intro hm
  have := h.2 _ hm
  revert this
  decide

theorem shift_word {w : Str} (h : IsWord w) : shift w = w := shift_self (word_no_newline h)

theorem shift_gap (l : Nat) : shift (gapAt true l) = gapAt true (l + 1) := shift_nl l
theorem shift_gapBrace (l : Nat) : shift (gapBrace true l) = gapBrace true (l + 1) := shift_nl l
theorem shift_sep (l : Nat) : shift (sepAt true l) = sepAt true (l + 1) := by
  show shift (',' :: nlAt l) = ',' :: nlAt (l + 1)
  rw [shift_cons (by decide), shift_nl]
theorem shift_fin (l : Nat) {c : Char} (hc : c ≠ '\n') : shift (finAt true l c) = finAt true (l + 1) c := by
  show shift (',' :: (nlAt l ++ [c])) = ',' :: (nlAt (l + 1) ++ [c])
  rw [shift_cons (by decide), shift_append, shift_nl, shift_cons hc]
  rfl
theorem shift_finBrace (l : Nat) : shift (finBrace true l) = finBrace true (l + 1) := shift_fin l (by decide)

mutual
theorem shift_at (l : Nat) : ∀ {s : Shown}, s.Ok plain → shift (s.at' true l) = s.at' true (l + 1)
  | .text s, h => by
    simp only [Shown.Ok] at h
    rw [Shown.at', Shown.at']
    rcases h with h | ⟨t, rfl⟩
    · exact shift_word h
    · exact shift_self (quote_no_newline t)
  | .tuple n fs, h => by
    simp only [Shown.Ok] at h
    rw [Shown.at', Shown.at', shift_append, shift_word h.1, shift_cons (by decide), shift_append, shift_append, shift_gap,
      shift_atItems (l + 1) h.2.2, shift_fin l (by decide)]
  | .struct n fs, h => by
    simp only [Shown.Ok] at h
    rw [Shown.at', Shown.at', shift_append, shift_word h.1, shift_cons (by decide), shift_cons (by decide), shift_append,
      shift_append, shift_gapBrace, shift_atFields (l + 1) h.2.2, shift_finBrace]
  | .list [], _ => rfl
  | .list (s :: ss), h => by
    simp only [Shown.Ok] at h
    rw [Shown.at', Shown.at', shift_cons (by decide), shift_append, shift_append, shift_gap, shift_atItems (l + 1) h,
      shift_fin l (by decide)]
theorem shift_atItems (l : Nat) : ∀ {ss : List Shown}, Shown.OkItems plain ss → shift (Shown.atItems true l ss) = Shown.atItems true (l + 1) ss
  | [], _ => rfl
  | [s], h => by
    rw [Shown.OkItems] at h
    rw [Shown.atItems, Shown.atItems, shift_at l h.1]
  | s :: t :: ss, h => by
    rw [Shown.OkItems] at h
    rw [atItems_two, atItems_two, shift_append, shift_append, shift_at l h.1, shift_sep, shift_atItems l h.2]
theorem shift_atFields (l : Nat) : ∀ {fs : List (Str × Shown)}, Shown.OkFields plain fs →
    shift (Shown.atFields true l fs) = Shown.atFields true (l + 1) fs
  | [], _ => rfl
  | [(n, s)], h => by
    rw [Shown.OkFields] at h
    rw [Shown.atFields, Shown.atFields, shift_append, shift_word h.1, shift_cons (by decide), shift_cons (by decide), shift_at l h.2.1]
  | (n, s) :: t :: fs, h => by
    rw [Shown.OkFields] at h
    rw [atFields_two, atFields_two, shift_append, shift_word h.1, shift_cons (by decide), shift_cons (by decide), shift_append,
      shift_append, shift_at l h.2.1, shift_sep, shift_atFields l h.2.2]
end

mutual
theorem lines_at : ∀ {s : Shown}, s.Ok plain → s.lines = s.at' true 0
  | .text _, _ => rfl
  | .tuple n fs, h => by
    simp only [Shown.Ok] at h
    have := linesItems_at h.2.1 h.2.2
    rw [Shown.lines, Shown.at']
    have e : n ++ ['(', '\n'] ++ Shown.linesItems fs ++ [')'] = n ++ '(' :: ('\n' :: Shown.linesItems fs ++ [')']) := by simp
    rw [e, this]
    simp [finAt, nlAt, gapAt]
  | .struct n fs, h => by
    simp only [Shown.Ok] at h
    have := linesFields_at h.2.1 h.2.2
    rw [Shown.lines, Shown.at']
    have e : n ++ [' ', '{', '\n'] ++ Shown.linesFields fs ++ ['}'] = n ++ ' ' :: '{' :: ('\n' :: Shown.linesFields fs ++ ['}']) := by simp
    rw [e, this]
    simp [finBrace, nlAt, gapBrace]
  | .list [], _ => rfl
  | .list (s :: ss), h => by
    simp only [Shown.Ok] at h
    have := linesItems_at (ss := s :: ss) (by simp) h
    rw [Shown.lines, Shown.at']
    have e : ['[', '\n'] ++ Shown.linesItems (s :: ss) ++ [']'] = '[' :: ('\n' :: Shown.linesItems (s :: ss) ++ [']']) := by simp
    rw [e, this]
    simp [finAt, nlAt, gapAt]
theorem linesItems_at : ∀ {ss : List Shown}, ss ≠ [] → Shown.OkItems plain ss →
    '\n' :: Shown.linesItems ss = nlAt 1 ++ (Shown.atItems true 1 ss ++ [',', '\n'])
  | [], h, _ => absurd rfl h
  | [s], _, h => by
    rw [Shown.OkItems] at h
    rw [Shown.linesItems, Shown.linesItems, Shown.atItems, (padText_comma _).2, lines_at h.1, shift_at 0 h.1]
    simp [nlAt, List.replicate]
  | s :: t :: ss, _, h => by
    rw [Shown.OkItems] at h
    have ih := linesItems_at (ss := t :: ss) (by simp) h.2
    have e : Shown.linesItems (s :: t :: ss) = padText true (s.lines ++ [',', '\n']) ++ Shown.linesItems (t :: ss) := by rw [Shown.linesItems]
    rw [e, (padText_comma _).2, lines_at h.1, shift_at 0 h.1, atItems_two]
    have e2 : ('\n' :: ([' ', ' ', ' ', ' '] ++ (s.at' true (0 + 1) ++ [',', '\n']) ++ Shown.linesItems (t :: ss)) : Str)
        = nlAt 1 ++ (s.at' true 1 ++ ',' :: ('\n' :: Shown.linesItems (t :: ss))) := by simp [nlAt, List.replicate]
    rw [e2, ih]
    simp [sepAt]
theorem linesFields_at : ∀ {fs : List (Str × Shown)}, fs ≠ [] → Shown.OkFields plain fs →
    '\n' :: Shown.linesFields fs = nlAt 1 ++ (Shown.atFields true 1 fs ++ [',', '\n'])
  | [], h, _ => absurd rfl h
  | [(n, s)], _, h => by
    rw [Shown.OkFields] at h
    rw [Shown.linesFields, Shown.linesFields, Shown.atFields, (padText_comma _).2, lines_at h.2.1, shift_append, shift_append,
      shift_word h.1, shift_at 0 h.2.1]
    simp [nlAt, List.replicate, shift]
  | (n, s) :: t :: fs, _, h => by
    rw [Shown.OkFields] at h
    have ih := linesFields_at (fs := t :: fs) (by simp) h.2.2
    have e : Shown.linesFields ((n, s) :: t :: fs) = padText true (n ++ [':', ' '] ++ s.lines ++ [',', '\n']) ++ Shown.linesFields (t :: fs) := by
      rw [Shown.linesFields]
    rw [e, (padText_comma _).2, lines_at h.2.1, shift_append, shift_append, shift_word h.1, shift_at 0 h.2.1, atFields_two]
    have e2 : ('\n' :: ([' ', ' ', ' ', ' '] ++ (n ++ shift [':', ' '] ++ s.at' true (0 + 1) ++ [',', '\n']) ++ Shown.linesFields (t :: fs)) : Str)
        = nlAt 1 ++ (n ++ ':' :: ' ' :: (s.at' true 1 ++ ',' :: ('\n' :: Shown.linesFields (t :: fs)))) := by simp [nlAt, List.replicate, shift]
    rw [e2, ih]
    simp [sepAt]
end

theorem render_at (a : Bool) {s : Shown} (h : s.Ok plain) : s.render a = s.at' a 0 := by
  cases a with
  | true => exact lines_at h
  | false => exact flat_at 0 s

/-- What is rendered alike is the same. -/
theorem render_inj {a : Bool} {s t : Shown} (hs : s.Ok plain) (ht : t.Ok plain) (h : s.render a = t.render a) : s = t := by
  rw [render_at a hs, render_at a ht] at h
  exact (at_split (x := []) (y := []) hs ht (.inl rfl) (.inl rfl) (by simpa using h)).1

/-- A character that a line of ASCII can hold, or one that core holds to be printable and does not escape. -/
def Visible (plain : Char → Bool) (c : Char) : Prop :=
  (' ' ≤ c ∧ c ≤ '~') ∨ (plain c = true ∧ c ≠ Char.ofNat 0 ∧ c ≠ '\t' ∧ c ≠ '\r' ∧ c ≠ '\n')

theorem visible_lit {t : Str} (h : (t.all fun c => decide (' ' ≤ c ∧ c ≤ '~')) = true) : ∀ c ∈ t, Visible plain c := by
  intro c hc
  rw [List.all_eq_true] at h
  exact .inl (of_decide_eq_true (h c hc))

theorem visible_word {w : Str} (h : IsWord w) : ∀ c ∈ w, Visible plain c := by
  intro c hc
  have := h.2 c hc
  unfold wordChar Char.isAlphanum Char.isAlpha Char.isUpper Char.isLower Char.isDigit at this
  simp only [Bool.or_eq_true, Bool.and_eq_true, decide_eq_true_eq, beq_iff_eq] at this
  refine .inl ?_
  rw [Char.le_def, Char.le_def]
  simp only [UInt32.le_iff_toNat_le] at this ⊢
  rcases this with ((h | h) | h) | h
  · exact ⟨Nat.le_trans (by decide) h.1, Nat.le_trans h.2 (by decide)⟩
  · exact ⟨Nat.le_trans (by decide) h.1, Nat.le_trans h.2 (by decide)⟩
  · exact ⟨Nat.le_trans (by decide) h.1, Nat.le_trans h.2 (by decide)⟩
  · subst h; decide

theorem visible_hex {n : Nat} : ∀ c ∈ Nat.toDigits 16 n, Visible plain c := by
  intro c hc
  have := toDigits16_hex n c hc
  unfold isHexChar Char.isDigit at this
  simp only [Bool.or_eq_true, Bool.and_eq_true, decide_eq_true_eq, beq_iff_eq] at this
  refine .inl ?_
  rcases this with (((((h | h) | h) | h) | h) | h) | h
  · rw [Char.le_def, Char.le_def]
    simp only [UInt32.le_iff_toNat_le] at h ⊢
    exact ⟨Nat.le_trans (by decide) h.1, Nat.le_trans h.2 (by decide)⟩
  all_goals (subst h; decide)

theorem visible_append {a b : Str} (ha : ∀ c ∈ a, Visible plain c) (hb : ∀ c ∈ b, Visible plain c) : ∀ c ∈ a ++ b, Visible plain c :=
  fun c hc => (List.mem_append.mp hc).elim (ha c) (hb c)

theorem visible_escape (c : Char) : ∀ d ∈ escapeDebug plain c, Visible plain d := by
  unfold escapeDebug
  split
  · exact visible_lit (by decide)
  split
  · exact visible_lit (by decide)
  split
  · exact visible_lit (by decide)
  split
  · exact visible_lit (by decide)
  split
  · exact visible_lit (by decide)
  split
  · exact visible_lit (by decide)
  split
  · intro d hd
    rw [List.mem_singleton] at hd
    subst hd
    exact .inr ⟨by assumption, by assumption, by assumption, by assumption, by assumption⟩
  · exact visible_append (visible_append (visible_lit (by decide)) visible_hex) (visible_lit (by decide))

theorem visible_quote (s : Str) : ∀ c ∈ quoteDebug plain s, Visible plain c := by
  unfold quoteDebug
  refine visible_append (a := ['"']) (visible_lit (by decide)) (visible_append ?_ (visible_lit (by decide)))
  intro c hc
  rw [List.mem_flatMap] at hc
  obtain ⟨d, _, hd⟩ := hc
  exact visible_escape d c hd

mutual
theorem flat_visible : ∀ {s : Shown}, s.Ok plain → ∀ c ∈ s.flat, Visible plain c
  | .text s, h => by
    simp only [Shown.Ok] at h
    rw [Shown.flat]
    rcases h with h | ⟨t, rfl⟩
    · exact visible_word h
    · exact visible_quote t
  | .tuple n fs, h => by
    simp only [Shown.Ok] at h
    rw [Shown.flat]
    exact visible_append (visible_word h.1) (visible_append (a := ['(']) (visible_lit (by decide))
      (visible_append (flatItems_visible h.2.2) (visible_lit (by decide))))
  | .struct n fs, h => by
    simp only [Shown.Ok] at h
    rw [Shown.flat]
    exact visible_append (visible_append (visible_append (visible_word h.1) (visible_lit (by decide)))
      (flatFields_visible h.2.2)) (visible_lit (by decide))
  | .list ss, h => by
    simp only [Shown.Ok] at h
    rw [Shown.flat]
    exact visible_append (a := ['[']) (visible_lit (by decide)) (visible_append (flatItems_visible h) (visible_lit (by decide)))
theorem flatItems_visible : ∀ {ss : List Shown}, Shown.OkItems plain ss → ∀ c ∈ Shown.flatItems ss, Visible plain c
  | [], _ => by simp [Shown.flatItems]
  | [s], h => by
    rw [Shown.OkItems] at h
    rw [Shown.flatItems]
    exact flat_visible h.1
  | s :: t :: ss, h => by
    rw [Shown.OkItems] at h
    rw [Shown.flatItems]
    · exact visible_append (visible_append (flat_visible h.1) (visible_lit (by decide))) (flatItems_visible h.2)
    · simp
theorem flatFields_visible : ∀ {fs : List (Str × Shown)}, Shown.OkFields plain fs → ∀ c ∈ Shown.flatFields fs, Visible plain c
  | [], _ => by simp [Shown.flatFields]
  | [(n, s)], h => by
    rw [Shown.OkFields] at h
    rw [Shown.flatFields]
    exact visible_append (visible_append (visible_word h.1) (visible_lit (by decide))) (flat_visible h.2.1)
  | (n, s) :: t :: fs, h => by
    rw [Shown.OkFields] at h
    rw [Shown.flatFields]
    · exact visible_append (visible_append (visible_append (visible_append (visible_word h.1) (visible_lit (by decide)))
        (flat_visible h.2.1)) (visible_lit (by decide))) (flatFields_visible h.2.2)
    · simp
end

end

end JustJson
