import Verif.Lemmas.Sound
/-! # Completeness of `Value` parsing: texts of the grammar are read, up to the recursion limit -/

namespace JustJson
open Spec

set_option linter.unusedSectionVars false

section
variable {src : List UInt8} [Arch] {g : Bool} {cfg : ParseConfig}

/-- `out` is `ok a s'`, or a recursion error when the depth `d` exceeds what remains. -/
def Cmp {α : Type} (lim : Bool) (rem d : Nat) (out : Out (PState Unit) (Error Empty) α) (a : α)
    (s' : PState Unit) : Prop :=
  if lim = true ∧ rem < d then ∃ e s, out = .err e s ∧ e.kind = .recursionLimitReached else out = .ok a s'

theorem Cmp.bind {α β : Type} {lim : Bool} {rem d1 d2 : Nat}
    {m : M (PState Unit) (Error Empty) α} {f : α → M (PState Unit) (Error Empty) β}
    {s s1 s2 : PState Unit} {a : α} {b : β} (h1 : Cmp lim rem d1 (m s) a s1)
    (h2 : Cmp lim rem d2 (f a s1) b s2) : Cmp lim rem (max d1 d2) ((m >>= f) s) b s2 := by
  unfold Cmp at *
  rw [M.bind_eq]
  by_cases c1 : lim = true ∧ rem < d1
  · rw [if_pos c1] at h1
    rw [if_pos ⟨c1.1, by omega⟩]
    obtain ⟨e, s', h, hk⟩ := h1
    rw [h]
    exact ⟨e, s', rfl, hk⟩
  · rw [if_neg c1] at h1
    rw [h1]
    by_cases c2 : lim = true ∧ rem < d2
    · rw [if_pos c2] at h2
      rw [if_pos ⟨c2.1, by omega⟩]
      exact h2
    · rw [if_neg c2] at h2
      rw [if_neg (fun h => by have : lim = true := h.1; rcases Nat.lt_or_ge rem d1 with h' | h'
                              · exact c1 ⟨this, h'⟩
                              · exact c2 ⟨this, by have := h.2; omega⟩)]
      exact h2

theorem Cmp.ok {α : Type} {lim : Bool} {rem : Nat} {a : α} {s : PState Unit} :
    Cmp lim rem 0 (.ok a s) a s := by
  unfold Cmp
  rw [if_neg (by omega)]

theorem Cmp.bindOk {α β : Type} {lim : Bool} {rem d : Nat}
    {m : M (PState Unit) (Error Empty) α} {f : α → M (PState Unit) (Error Empty) β}
    {s s1 s2 : PState Unit} {a : α} {b : β} (h1 : m s = .ok a s1)
    (h2 : Cmp lim rem d (f a s1) b s2) : Cmp lim rem d ((m >>= f) s) b s2 := by
  rw [M.bind_ok h1]; exact h2

theorem Cmp.mapErr {α : Type} {lim : Bool} {rem d : Nat} {m : M (PState Unit) (Error Empty) α} {s s1 : PState Unit} {a : α}
    {k : ErrorKind Empty} (h : Cmp lim rem d (m s) a s1) : Cmp lim rem d (M.mapErr (eofTo k) m s) a s1 := by
  unfold Cmp M.mapErr at *
  split
  · rename_i c
    rw [if_pos c] at h
    obtain ⟨e, s', h, hk⟩ := h
    rw [h]
    exact ⟨_, _, rfl, by unfold eofTo; rw [hk]; exact hk⟩
  · rename_i c
    rw [if_neg c] at h
    rw [h]

/-- Where a value ends: nothing that would extend a number. -/
def StopAfter : Json → List UInt8 → Prop
  | .num n, r => NumStop n r
  | _, _ => True

/-- A byte that ends every number. -/
def Sep (b : UInt8) : Prop := b = 0x20 ∨ b = 0x09 ∨ b = 0x0A ∨ b = 0x0D ∨ b = 0x2C ∨ b = 0x5D ∨ b = 0x7D

theorem stopAfter_of {r : List UInt8} (h : ∀ b, r.head? = some b → Sep b) (j : Json) : StopAfter j r := by
  cases j with
  | num n =>
    intro b hb
    have := h b hb
    rcases this with rfl | rfl | rfl | rfl | rfl | rfl | rfl <;>
      refine ⟨fun _ => by decide, fun _ => ⟨by decide, by decide, fun _ => by decide, fun _ => ⟨by decide, fun _ => by decide⟩⟩⟩
  | _ => exact True.intro

theorem sep_ws {w r : List UInt8} {c : UInt8} (hw : Ws w) (hc : Sep c) :
    ∀ b, (w ++ c :: r).head? = some b → Sep b := by
  intro b hb
  cases w with
  | nil => simp at hb; rw [← hb]; exact hc
  | cons x t =>
    simp at hb
    rw [← hb]
    rcases hw x (by simp) with h | h | h | h <;> simp [Sep, h]

theorem liftTok_ok {D : Delegate} {α : Type} {m : TokM α} {s : PState D.σ} {a : α} {off : Nat} (h : m s.offset = .ok a off) :
    liftTok D m s = .ok a { s with offset := off } := by
  unfold liftTok; rw [h]

theorem nextColon_ok {D : Delegate} {s : PState D.σ} {a : Token} {off : Nat} (h : nextOrEof src g s.offset = .ok a off) :
    nextColon g src D s = .ok a { s with offset := off } := by
  unfold nextColon; rw [h]

theorem drop_step {off : Nat} {a r : List UInt8} (h : src.drop off = a ++ r) : src.drop (off + a.length) = r := by
  rw [← List.drop_drop, h]; simp

theorem length_of_drop {off : Nat} {a : List UInt8} (h : src.drop off = a) : a.length = src.length - off := by
  rw [← h]; simp

theorem NumLit.bytes_pos {n : NumLit} (h : n.Valid) : 0 < n.bytes.length := Lex.bytes_pos (l := .num n) h

/-- first byte of a value -/
theorem gvalue_head {tc : Bool} {b : List UInt8} {j : Json} (h : GValue tc b j) :
    ∃ c t, b = c :: t ∧ isWs c = false ∧ c ≠ 0x5D := by
  cases h with
  | num n hv =>
    obtain ⟨hi, -, -⟩ := hv
    unfold NumLit.bytes
    cases n.minus
    · cases hint : n.int with
      | nil => exact absurd hint hi.1.1
      | cons d ds =>
        refine ⟨d, _, by simp; rfl, ?_, ?_⟩
        · have := hi.1.2 d (by rw [hint]; simp)
          rw [← Bool.not_eq_true, isWs_iff]
          rintro (rfl | rfl | rfl | rfl) <;> revert this <;> decide
        · rintro rfl
          have := hi.1.2 0x5D (by rw [hint]; simp)
          revert this; decide
    · exact ⟨0x2D, _, by simp; rfl, by decide, by decide⟩
  | null => exact ⟨_, _, rfl, by decide, by decide⟩
  | «true» => exact ⟨_, _, rfl, by decide, by decide⟩
  | «false» => exact ⟨_, _, rfl, by decide, by decide⟩
  | str s _ => exact ⟨_, _, rfl, by decide, by decide⟩
  | emptyArr w _ => exact ⟨_, _, rfl, by decide, by decide⟩
  | emptyObj w _ => exact ⟨_, _, rfl, by decide, by decide⟩
  | arr w _ => exact ⟨_, _, rfl, by decide, by decide⟩
  | obj w _ => exact ⟨_, _, rfl, by decide, by decide⟩

/-- completeness for values -/
def CV (g : Bool) (src : List UInt8) (cfg : ParseConfig) (b : List UInt8) (j : Json) : Prop :=
  ∀ (fuel off rem : Nat) (w r : List UInt8), Ws w → src.drop off = w ++ (b ++ r) → StopAfter j r →
    3 * (src.length - off) + 1 ≤ fuel →
    Cmp cfg.recursionLimit.isSome rem j.depth (readTokens g src cfg valueParser fuel ⟨off, (), rem⟩) (ofJson j)
      ⟨off + w.length + b.length, (), rem⟩

/-- completeness for elements -/
def CE (g : Bool) (src : List UInt8) (cfg : ParseConfig) (b : List UInt8) (js : List Json) : Prop :=
  ∀ (fuel off rem : Nat) (r : List UInt8) (arr : List Value), src.drop off = b ++ 0x5D :: r →
    3 * (src.length - off) + 2 ≤ fuel →
    Cmp cfg.recursionLimit.isSome rem (depthList js) (readArrayLoop g src cfg valueParser fuel arr ⟨off, (), rem⟩)
      (arr ++ ofJsons js) ⟨off + b.length + 1, (), rem⟩

/-- completeness for members -/
def CM (g : Bool) (src : List UInt8) (cfg : ParseConfig) (b : List UInt8) (ms : List (List Item × Json)) : Prop :=
  ∀ (fuel off rem : Nat) (r : List UInt8) (o : Object), src.drop off = b ++ 0x7D :: r →
    3 * (src.length - off) + 2 ≤ fuel →
    Cmp cfg.recursionLimit.isSome rem (depthMembers ms) (readObjectLoop g src cfg valueParser fuel o ⟨off, (), rem⟩)
      (o ++ ofMembers ms) ⟨off + b.length + 1, (), rem⟩

/-- the loop at a closing bracket -/
theorem arr_close {fuel off rem : Nat} {w r : List UInt8} {arr : List Value} (hw : Ws w)
    (h : src.drop off = w ++ 0x5D :: r) (hc : cfg.allowTrailingCommas = true ∨ arr = []) :
    readArrayLoop g src cfg valueParser (fuel + 1) arr ⟨off, (), rem⟩ = .ok arr ⟨off + w.length + 1, (), rem⟩ := by
  have hp : tokPeek src off = .ok (some .arrayEnd) (off + w.length) := by
    rw [tokPeek_eq, skipWs_of hw h (by simp; decide), drop_step h]
    rfl
  rw [readArrayLoop]
  refine (M.bind_ok (tokOffset_eq _)).trans ?_
  refine (M.bind_ok (liftTok_ok hp)).trans ?_
  rw [if_pos rfl]
  refine (M.bind_ok (M.modify_eq _ _)).trans ?_
  rcases hc with hc | hc
  · rw [if_pos hc]; rfl
  · subst hc
    split
    · rfl
    · rfl

/-- the loop at a closing brace -/
theorem obj_close {fuel off rem : Nat} {w r : List UInt8} {o : Object} (hw : Ws w) (hlim : src.length < LIM)
    (h : src.drop off = w ++ 0x7D :: r) (hc : cfg.allowTrailingCommas = true ∨ o = []) :
    readObjectLoop g src cfg valueParser (fuel + 1) o ⟨off, (), rem⟩ = .ok o ⟨off + w.length + 1, (), rem⟩ := by
  rw [readObjectLoop]
  refine (M.bind_ok (tokOffset_eq _)).trans ?_
  refine (M.bind_ok (liftTok_ok (nextOrEof_complete (g := g) (off := off) (r := r) (l := .objC) hw trivial (by simpa [Lex.bytes] using h) trivial hlim))).trans ?_
  simp only [Lex.token]
  rcases hc with hc | hc
  · rw [if_pos hc]; rfl
  · subst hc
    split
    · rfl
    · rfl

/-- reading a container once its body is read -/
theorem cv_arr {b : List UInt8} {js : List Json} (hlim : src.length < LIM)
    (hbody : ∀ (fuel off rem : Nat) (r : List UInt8), src.drop off = b ++ 0x5D :: r →
      3 * (src.length - off) + 2 ≤ fuel →
      Cmp cfg.recursionLimit.isSome rem (depthList js) (readArrayLoop g src cfg valueParser fuel [] ⟨off, (), rem⟩)
      (ofJsons js) ⟨off + b.length + 1, (), rem⟩) :
    CV g src cfg (0x5B :: (b ++ [0x5D])) (.arr js) := by
  intro fuel off rem w r hw h hs hf
  have hd1 : src.drop (off + w.length) = 0x5B :: (b ++ 0x5D :: r) := by
    rw [drop_step h]; simp
  have hlt := lt_of_drop_cons hd1
  have hd2 : src.drop (off + w.length + 1) = b ++ 0x5D :: r := drop_succ_of_cons hd1
  obtain ⟨f2, rfl⟩ : ∃ f, fuel = f + 2 := ⟨fuel - 2, by omega⟩
  rw [readTokens]
  refine Cmp.bindOk (tokOffset_eq _) ?_
  refine Cmp.bindOk (liftTok_ok (nextOrEof_complete (g := g) (off := off) (r := b ++ 0x5D :: r) (l := .arrO) hw trivial
    (by rw [h]; simp [Lex.bytes]) trivial hlim)) ?_
  simp only [Lex.token]
  have hrun : ∀ rem', Cmp cfg.recursionLimit.isSome rem' (depthList js)
      (readArray g src cfg valueParser (f2 + 1) ⟨off + w.length + 1, (), rem'⟩) (ofJson (.arr js))
      ⟨off + w.length + (b.length + 2), (), rem' + if cfg.recursionLimit.isSome then 1 else 0⟩ := by
    intro rem'
    rw [readArray]
    refine Cmp.bindOk (tokOffset_eq _) ?_
    refine Cmp.bindOk (a := ([] : List Value)) (s1 := ⟨off + w.length + 1, (), rem'⟩) rfl ?_
    have := Cmp.bind (f := fun (array : List Value) => (do
      let value ← liftD valueParser (off + w.length + 1) (valueParser.endArray array)
      endNest cfg valueParser
      return value : PM valueParser Value)) (hbody f2 (off + w.length + 1) rem' r hd2 (by omega)) (d2 := 0)
      (b := ofJson (.arr js)) (s2 := ⟨off + w.length + (b.length + 2), (), rem' + if cfg.recursionLimit.isSome then 1 else 0⟩) ?_
    · rw [Nat.max_zero] at this
      exact this
    · refine Cmp.bindOk (a := Value.array (ofJsons js)) (s1 := ⟨off + w.length + 1 + b.length + 1, (), rem'⟩) rfl ?_
      have : endNest cfg valueParser ⟨off + w.length + 1 + b.length + 1, (), rem'⟩ = .ok ()
          ⟨off + w.length + 1 + b.length + 1, (), rem' + if cfg.recursionLimit.isSome then 1 else 0⟩ := by
        unfold endNest
        split
        · rename_i hh; rfl
        · rfl
      refine Cmp.bindOk this ?_
      have he : off + w.length + (b.length + 2) = off + w.length + 1 + b.length + 1 := by omega
      rw [he]
      exact Cmp.ok
  have hlen : off + w.length + (0x5B :: (b ++ [0x5D]) : List UInt8).length = off + w.length + (b.length + 2) := by simp
  rw [hlen]
  show Cmp _ _ (1 + depthList js) _ _ _
  by_cases hl : cfg.recursionLimit.isSome = true
  · by_cases hrem : rem = 0
    · unfold Cmp
      rw [if_pos ⟨hl, by omega⟩]
      refine ⟨⟨off, .recursionLimitReached⟩, ⟨off + w.length + 1, (), rem⟩, ?_, rfl⟩
      refine M.bind_err ?_
      unfold beginNest
      rw [if_pos hl, if_neg (by show ¬ rem > 0; omega)]
      rfl
    · refine Cmp.bindOk (a := ()) (s1 := ⟨off + w.length + 1, (), rem - 1⟩) ?_ ?_
      · unfold beginNest
        rw [if_pos hl, if_pos (by show rem > 0; omega)]
        rfl
      · refine Cmp.mapErr ?_
        have := hrun (rem - 1)
        rw [if_pos hl, Nat.sub_add_cancel (by omega)] at this
        unfold Cmp at this ⊢
        by_cases hc : rem - 1 < depthList js
        · rw [if_pos ⟨hl, hc⟩] at this
          rw [if_pos ⟨hl, by omega⟩]
          exact this
        · rw [if_neg (fun h => hc h.2)] at this
          rw [if_neg (fun h => hc (by have := h.2; omega))]
          exact this
  · refine Cmp.bindOk (a := ()) (s1 := ⟨off + w.length + 1, (), rem⟩) ?_ ?_
    · unfold beginNest
      rw [if_neg hl]
      rfl
    · refine Cmp.mapErr ?_
      have := hrun rem
      rw [if_neg hl, Nat.add_zero] at this
      unfold Cmp at this ⊢
      rw [if_neg (fun h => hl h.1)] at this ⊢
      exact this

/-- reading a container once its body is read -/
theorem cv_obj {b : List UInt8} {ms : List (List Item × Json)} (hlim : src.length < LIM)
    (hbody : ∀ (fuel off rem : Nat) (r : List UInt8), src.drop off = b ++ 0x7D :: r →
      3 * (src.length - off) + 2 ≤ fuel →
      Cmp cfg.recursionLimit.isSome rem (depthMembers ms) (readObjectLoop g src cfg valueParser fuel [] ⟨off, (), rem⟩)
      (ofMembers ms) ⟨off + b.length + 1, (), rem⟩) :
    CV g src cfg (0x7B :: (b ++ [0x7D])) (.obj ms) := by
  intro fuel off rem w r hw h hs hf
  have hd1 : src.drop (off + w.length) = 0x7B :: (b ++ 0x7D :: r) := by
    rw [drop_step h]; simp
  have hlt := lt_of_drop_cons hd1
  have hd2 : src.drop (off + w.length + 1) = b ++ 0x7D :: r := drop_succ_of_cons hd1
  obtain ⟨f2, rfl⟩ : ∃ f, fuel = f + 2 := ⟨fuel - 2, by omega⟩
  rw [readTokens]
  refine Cmp.bindOk (tokOffset_eq _) ?_
  refine Cmp.bindOk (liftTok_ok (nextOrEof_complete (g := g) (off := off) (r := b ++ 0x7D :: r) (l := .objO) hw trivial
    (by rw [h]; simp [Lex.bytes]) trivial hlim)) ?_
  simp only [Lex.token]
  have hrun : ∀ rem', Cmp cfg.recursionLimit.isSome rem' (depthMembers ms)
      (readObject g src cfg valueParser (f2 + 1) ⟨off + w.length + 1, (), rem'⟩) (ofJson (.obj ms))
      ⟨off + w.length + (b.length + 2), (), rem' + if cfg.recursionLimit.isSome then 1 else 0⟩ := by
    intro rem'
    rw [readObject]
    refine Cmp.bindOk (tokOffset_eq _) ?_
    refine Cmp.bindOk (a := ([] : Object)) (s1 := ⟨off + w.length + 1, (), rem'⟩) rfl ?_
    have := Cmp.bind (f := fun (array : Object) => (do
      let offset ← tokOffset valueParser
      let value ← liftD valueParser offset (valueParser.endObject array)
      endNest cfg valueParser
      return value : PM valueParser Value)) (hbody f2 (off + w.length + 1) rem' r hd2 (by omega)) (d2 := 0)
      (b := ofJson (.obj ms)) (s2 := ⟨off + w.length + (b.length + 2), (), rem' + if cfg.recursionLimit.isSome then 1 else 0⟩) ?_
    · rw [Nat.max_zero] at this
      exact this
    · refine Cmp.bindOk (tokOffset_eq _) ?_
      refine Cmp.bindOk (a := Value.object (ofMembers ms)) (s1 := ⟨off + w.length + 1 + b.length + 1, (), rem'⟩) rfl ?_
      have : endNest cfg valueParser ⟨off + w.length + 1 + b.length + 1, (), rem'⟩ = .ok ()
          ⟨off + w.length + 1 + b.length + 1, (), rem' + if cfg.recursionLimit.isSome then 1 else 0⟩ := by
        unfold endNest
        split
        · rename_i hh; rfl
        · rfl
      refine Cmp.bindOk this ?_
      have he : off + w.length + (b.length + 2) = off + w.length + 1 + b.length + 1 := by omega
      rw [he]
      exact Cmp.ok
  have hlen : off + w.length + (0x7B :: (b ++ [0x7D]) : List UInt8).length = off + w.length + (b.length + 2) := by simp
  rw [hlen]
  show Cmp _ _ (1 + depthMembers ms) _ _ _
  by_cases hl : cfg.recursionLimit.isSome = true
  · by_cases hrem : rem = 0
    · unfold Cmp
      rw [if_pos ⟨hl, by omega⟩]
      refine ⟨⟨off, .recursionLimitReached⟩, ⟨off + w.length + 1, (), rem⟩, ?_, rfl⟩
      refine M.bind_err ?_
      unfold beginNest
      rw [if_pos hl, if_neg (by show ¬ rem > 0; omega)]
      rfl
    · refine Cmp.bindOk (a := ()) (s1 := ⟨off + w.length + 1, (), rem - 1⟩) ?_ ?_
      · unfold beginNest
        rw [if_pos hl, if_pos (by show rem > 0; omega)]
        rfl
      · refine Cmp.mapErr ?_
        have := hrun (rem - 1)
        rw [if_pos hl, Nat.sub_add_cancel (by omega)] at this
        unfold Cmp at this ⊢
        by_cases hc : rem - 1 < depthMembers ms
        · rw [if_pos ⟨hl, hc⟩] at this
          rw [if_pos ⟨hl, by omega⟩]
          exact this
        · rw [if_neg (fun h => hc h.2)] at this
          rw [if_neg (fun h => hc (by have := h.2; omega))]
          exact this
  · refine Cmp.bindOk (a := ()) (s1 := ⟨off + w.length + 1, (), rem⟩) ?_ ?_
    · unfold beginNest
      rw [if_neg hl]
      rfl
    · refine Cmp.mapErr ?_
      have := hrun rem
      rw [if_neg hl, Nat.add_zero] at this
      unfold Cmp at this ⊢
      rw [if_neg (fun h => hl h.1)] at this ⊢
      exact this

theorem cv_lex {l : Lex} {j : Json} (hlim : src.length < LIM) (hv : l.Valid) (hd : j.depth = 0)
    (hs : ∀ r, StopAfter j r → l.Stop r)
    (hm : ∀ (fuel : Nat) (s : PState Unit) (off' : Nat), nextOrEof src g s.offset = .ok l.token off' →
      readTokens g src cfg valueParser (fuel + 1) s = .ok (ofJson j) { s with offset := off' }) :
    CV g src cfg l.bytes j := by
  intro fuel off rem w r hw h hst hf
  obtain ⟨f, rfl⟩ : ∃ f, fuel = f + 1 := ⟨fuel - 1, by omega⟩
  have hn := nextOrEof_complete (g := g) hw hv h (hs r hst) hlim
  rw [hm f ⟨off, (), rem⟩ _ hn, hd]
  exact Cmp.ok

/-- one array element, then what follows -/
theorem ce_elem {w b w' : List UInt8} {j : Json} (hw : Ws w) (hb : GValue cfg.allowTrailingCommas b j)
    (ih : CV g src cfg b j) (hw' : Ws w')
    {fuel off rem d : Nat} {r : List UInt8} {c : UInt8} {arr arr' : List Value} {s' : PState Unit} (hc : c = 0x2C ∨ c = 0x5D)
    (h : src.drop off = w ++ b ++ w' ++ c :: r) (hf : 3 * (src.length - off) + 2 ≤ fuel + 1) (hlim : src.length < LIM)
    (hrest : Cmp cfg.recursionLimit.isSome rem d
      (if c = 0x5D then .ok (arr ++ [ofJson j]) ⟨off + w.length + b.length + w'.length + 1, (), rem⟩
       else readArrayLoop g src cfg valueParser fuel (arr ++ [ofJson j])
         ⟨off + w.length + b.length + w'.length + 1, (), rem⟩) arr' s') :
    Cmp cfg.recursionLimit.isSome rem (max j.depth d)
      (readArrayLoop g src cfg valueParser (fuel + 1) arr ⟨off, (), rem⟩) arr' s' := by
  have h' : src.drop off = w ++ (b ++ (w' ++ c :: r)) := by rw [h]; simp
  obtain ⟨x, t, rfl, hx1, hx2⟩ := gvalue_head hb
  have hp : ∃ k, tokPeek src off = .ok k (off + w.length) ∧ k ≠ some .arrayEnd := by
    refine ⟨some (peekKind x), ?_, ?_⟩
    · rw [tokPeek_eq, skipWs_of hw h' (by simpa using hx1), drop_step h']
      rfl
    · intro hk
      exact hx2 (peekKind_arrayEnd (by simpa using hk))
  obtain ⟨k, hp, hk⟩ := hp
  have hd1 := drop_step h'
  have hd2 : src.drop (off + w.length + (x :: t).length) = w' ++ c :: r := drop_step hd1
  have hlen := length_of_drop hd1
  simp only [List.length_append, List.length_cons] at hlen
  have hst : StopAfter j (w' ++ c :: r) := stopAfter_of (sep_ws hw' (by rcases hc with rfl | rfl <;> simp [Sep])) j
  rw [readArrayLoop]
  refine Cmp.bindOk (tokOffset_eq _) ?_
  refine Cmp.bindOk (liftTok_ok hp) ?_
  rw [if_neg hk]
  have hval := ih fuel (off + w.length) rem [] (w' ++ c :: r) ws_nil (by simpa using hd1) hst (by omega)
  refine Cmp.bind hval ?_
  refine Cmp.bindOk (tokOffset_eq _) ?_
  refine Cmp.bindOk (a := arr ++ [ofJson j]) (s1 := ⟨off + w.length + ([] : List UInt8).length + (x :: t).length, (), rem⟩) rfl ?_
  refine Cmp.bindOk (tokOffset_eq _) ?_
  rcases hc with rfl | rfl
  · refine Cmp.bindOk (liftTok_ok (nextOrEof_complete (g := g) (off := off + w.length + (x :: t).length) (r := r) (l := .comma) hw' trivial
      (by rw [hd2]; simp [Lex.bytes]) trivial hlim)) ?_
    rw [if_neg (by simp [Lex.token]), if_neg (by simp [Lex.token])]
    rw [if_neg (by decide)] at hrest
    exact hrest
  · refine Cmp.bindOk (liftTok_ok (nextOrEof_complete (g := g) (off := off + w.length + (x :: t).length) (r := r) (l := .arrC) hw' trivial
      (by rw [hd2]; simp [Lex.bytes]) trivial hlim)) ?_
    rw [if_pos (by simp [Lex.token])]
    rw [if_pos rfl] at hrest
    exact hrest

/-- one object member, then what follows -/
theorem cm_member {w w1 w2 b w' : List UInt8} {k : List Item} {j : Json} (hw : Ws w) (hk : ItemsValid k) (hw1 : Ws w1)
    (hw2 : Ws w2) (ih : CV g src cfg b j) (hw' : Ws w')
    {fuel off rem d : Nat} {r : List UInt8} {c : UInt8} {o o' : Object} {s' : PState Unit} (hc : c = 0x2C ∨ c = 0x7D)
    (h : src.drop off = w ++ (strBytes k ++ (w1 ++ 0x3A :: (w2 ++ (b ++ (w' ++ c :: r))))))
    (hf : 3 * (src.length - off) + 2 ≤ fuel + 1) (hlim : src.length < LIM)
    (hrest : Cmp cfg.recursionLimit.isSome rem d
      (if c = 0x7D then .ok (o ++ [(canonStr k, ofJson j)]) ⟨off + w.length + (strBytes k).length + w1.length + 1 + w2.length + b.length + w'.length + 1, (), rem⟩
       else readObjectLoop g src cfg valueParser fuel (o ++ [(canonStr k, ofJson j)])
         ⟨off + w.length + (strBytes k).length + w1.length + 1 + w2.length + b.length + w'.length + 1, (), rem⟩) o' s') :
    Cmp cfg.recursionLimit.isSome rem (max j.depth d)
      (readObjectLoop g src cfg valueParser (fuel + 1) o ⟨off, (), rem⟩) o' s' := by
  have hd0 := drop_step h
  have hd1 : src.drop (off + w.length + (strBytes k).length) = _ := drop_step hd0
  have hd2 : src.drop (off + w.length + (strBytes k).length + w1.length) = _ := drop_step hd1
  have hd3 : src.drop (off + w.length + (strBytes k).length + w1.length + 1) = _ := drop_succ_of_cons hd2
  have hd4 := drop_step hd3
  have hd5 : src.drop (off + w.length + (strBytes k).length + w1.length + 1 + w2.length + b.length) = w' ++ c :: r := drop_step hd4
  have hlen := length_of_drop hd2
  simp only [List.length_append, List.length_cons] at hlen
  have hst : StopAfter j (w' ++ c :: r) := stopAfter_of (sep_ws hw' (by rcases hc with rfl | rfl <;> simp [Sep])) j
  rw [readObjectLoop]
  refine Cmp.bindOk (tokOffset_eq _) ?_
  refine Cmp.bindOk (liftTok_ok (nextOrEof_complete (g := g) (off := off) (l := .str k) hw hk h trivial hlim)) ?_
  simp only [Lex.token, Lex.bytes]
  refine Cmp.bindOk (a := (o, canonStr k)) (s1 := ⟨off + w.length + (strBytes k).length, (), rem⟩) rfl ?_
  refine Cmp.bindOk (tokOffset_eq _) ?_
  refine Cmp.bindOk (nextColon_ok (nextOrEof_complete (g := g) (off := off + w.length + (strBytes k).length) (l := .colon) hw1 trivial
    (by rw [hd1]; rfl) trivial hlim)) ?_
  rw [if_neg (by simp [Lex.token])]
  refine Cmp.bindOk (tokOffset_eq _) ?_
  have hval := ih fuel (off + w.length + (strBytes k).length + w1.length + 1) rem w2 (w' ++ c :: r) hw2 hd3 hst (by omega)
  refine Cmp.bind hval ?_
  refine Cmp.bindOk (a := o ++ [(canonStr k, ofJson j)]) (s1 := ⟨off + w.length + (strBytes k).length + w1.length + 1 + w2.length + b.length, (), rem⟩) rfl ?_
  refine Cmp.bindOk (tokOffset_eq _) ?_
  rcases hc with rfl | rfl
  · refine Cmp.bindOk (liftTok_ok (nextOrEof_complete (g := g) (off := off + w.length + (strBytes k).length + w1.length + 1 + w2.length + b.length) (r := r) (l := .comma) hw' trivial
      (by rw [hd5]; simp [Lex.bytes]) trivial hlim)) ?_
    rw [if_neg (by simp [Lex.token]), if_neg (by simp [Lex.token])]
    rw [if_neg (by decide)] at hrest
    exact hrest
  · refine Cmp.bindOk (liftTok_ok (nextOrEof_complete (g := g) (off := off + w.length + (strBytes k).length + w1.length + 1 + w2.length + b.length) (r := r) (l := .objC) hw' trivial
      (by rw [hd5]; simp [Lex.bytes]) trivial hlim)) ?_
    rw [if_pos (by simp [Lex.token])]
    rw [if_pos rfl] at hrest
    exact hrest

theorem Cmp.cast {α : Type} {lim : Bool} {rem d d' : Nat} {out : Out (PState Unit) (Error Empty) α} {a a' : α} {s s' : PState Unit}
    (h : Cmp lim rem d out a s) (hd : d = d') (ha : a = a') (hs : s = s') : Cmp lim rem d' out a' s' := by
  subst hd ha hs; exact h

theorem vp_complete (hlim : src.length < LIM) {b : List UInt8} {j : Json} (h : GValue cfg.allowTrailingCommas b j) :
    CV g src cfg b j := by
  refine GValue.rec (motive_1 := fun b j _ => CV g src cfg b j) (motive_2 := fun b js _ => CE g src cfg b js)
    (motive_3 := fun b ms _ => CM g src cfg b ms) ?_ ?_ ?_ ?_ ?_ ?_ ?_ ?_ ?_ ?_ ?_ ?_ ?_ ?_ ?_ h
  · refine cv_lex (l := .null) hlim trivial rfl (fun _ _ => trivial) ?_
    intro fuel s off' hn
    rw [readTokens]
    refine (M.bind_ok (tokOffset_eq _)).trans ?_
    exact (M.bind_ok (liftTok_ok hn)).trans rfl
  · refine cv_lex (l := .bool true) hlim trivial rfl (fun _ _ => trivial) ?_
    intro fuel s off' hn
    rw [readTokens]
    refine (M.bind_ok (tokOffset_eq _)).trans ?_
    exact (M.bind_ok (liftTok_ok hn)).trans rfl
  · refine cv_lex (l := .bool false) hlim trivial rfl (fun _ _ => trivial) ?_
    intro fuel s off' hn
    rw [readTokens]
    refine (M.bind_ok (tokOffset_eq _)).trans ?_
    exact (M.bind_ok (liftTok_ok hn)).trans rfl
  · intro n hv
    refine cv_lex (l := .num n) hlim hv rfl (fun _ h => h) ?_
    intro fuel s off' hn
    rw [readTokens]
    refine (M.bind_ok (tokOffset_eq _)).trans ?_
    exact (M.bind_ok (liftTok_ok hn)).trans rfl
  · intro k hv
    refine cv_lex (l := .str k) hlim hv rfl (fun _ _ => trivial) ?_
    intro fuel s off' hn
    rw [readTokens]
    refine (M.bind_ok (tokOffset_eq _)).trans ?_
    exact (M.bind_ok (liftTok_ok hn)).trans rfl
  · intro w hw
    refine cv_arr hlim ?_
    intro fuel off rem r h hf
    obtain ⟨f, rfl⟩ : ∃ f, fuel = f + 1 := ⟨fuel - 1, by omega⟩
    rw [arr_close hw h (.inr rfl)]
    exact Cmp.ok
  · intro body js _ ih
    exact cv_arr hlim fun fuel off rem r h hf => ih fuel off rem r [] h hf
  · intro w hw
    refine cv_obj hlim ?_
    intro fuel off rem r h hf
    obtain ⟨f, rfl⟩ : ∃ f, fuel = f + 1 := ⟨fuel - 1, by omega⟩
    rw [obj_close hw hlim h (.inr rfl)]
    exact Cmp.ok
  · intro body ms _ ih
    exact cv_obj hlim fun fuel off rem r h hf => ih fuel off rem r [] h hf
  · intro w b w' j hw hb hw' ih fuel off rem r arr h hf
    obtain ⟨f, rfl⟩ : ∃ f, fuel = f + 1 := ⟨fuel - 1, by omega⟩
    refine (ce_elem (d := 0) hw hb ih hw' (.inr rfl) (by rw [h]) hf hlim (by rw [if_pos rfl]; exact Cmp.ok)).cast ?_ ?_ ?_
    · simp [depthList]
    · simp [ofJsons]
    · simp; omega
  · intro w b w' w'' j htc hw hb hw' hw'' ih fuel off rem r arr h hf
    obtain ⟨f, rfl⟩ : ∃ f, fuel = f + 2 := ⟨fuel - 2, by
      have := length_of_drop h
      simp only [List.length_append, List.length_cons] at this
      omega⟩
    have h1 : src.drop off = w ++ b ++ w' ++ 0x2C :: (w'' ++ 0x5D :: r) := by rw [h]; simp
    have h2 : src.drop (off + w.length + b.length + w'.length + 1) = w'' ++ 0x5D :: r := by
      have := drop_step (a := w ++ b ++ w' ++ [0x2C]) (r := w'' ++ 0x5D :: r) (by rw [h1]; simp)
      rw [← this]; congr 1; simp; omega
    refine (ce_elem (d := 0) hw hb ih hw' (.inl rfl) h1 hf hlim (by
      rw [if_neg (by decide), arr_close hw'' h2 (.inl htc)]; exact Cmp.ok)).cast ?_ ?_ ?_
    · simp [depthList]
    · simp [ofJsons]
    · simp; omega
  · intro w b w' rest j js hw hb hw' _ ih ihr fuel off rem r arr h hf
    obtain ⟨f, rfl⟩ : ∃ f, fuel = f + 1 := ⟨fuel - 1, by omega⟩
    have h1 : src.drop off = w ++ b ++ w' ++ 0x2C :: (rest ++ 0x5D :: r) := by rw [h]; simp
    have h2 : src.drop (off + w.length + b.length + w'.length + 1) = rest ++ 0x5D :: r := by
      have := drop_step (a := w ++ b ++ w' ++ [0x2C]) (r := rest ++ 0x5D :: r) (by rw [h1]; simp)
      rw [← this]; congr 1; simp; omega
    have hlen := length_of_drop h1
    simp only [List.length_append, List.length_cons] at hlen
    refine (ce_elem (d := depthList js) hw hb ih hw' (.inl rfl) h1 hf hlim (by
      rw [if_neg (by decide)]
      exact ihr f _ rem r _ h2 (by omega))).cast ?_ ?_ ?_
    · simp [depthList]
    · simp [ofJsons]
    · simp; omega
  · intro w w1 w2 b w' k j hw hk hw1 hw2 hb hw' ih fuel off rem r o h hf
    obtain ⟨f, rfl⟩ : ∃ f, fuel = f + 1 := ⟨fuel - 1, by omega⟩
    refine (cm_member (r := r) (d := 0) hw hk hw1 hw2 ih hw' (.inr rfl) (by rw [h]; simp) hf hlim (by rw [if_pos rfl]; exact Cmp.ok)).cast ?_ ?_ ?_
    · simp [depthMembers]
    · simp [ofMembers]
    · simp; omega
  · intro w w1 w2 b w' w'' k j htc hw hk hw1 hw2 hb hw' hw'' ih fuel off rem r o h hf
    obtain ⟨f, rfl⟩ : ∃ f, fuel = f + 2 := ⟨fuel - 2, by
      have := length_of_drop h
      simp only [List.length_append, List.length_cons] at this
      omega⟩
    have h1 : src.drop off = w ++ (strBytes k ++ (w1 ++ 0x3A :: (w2 ++ (b ++ (w' ++ 0x2C :: (w'' ++ 0x7D :: r)))))) := by rw [h]; simp
    have h2 : src.drop (off + w.length + (strBytes k).length + w1.length + 1 + w2.length + b.length + w'.length + 1) = w'' ++ 0x7D :: r := by
      have := drop_step (a := w ++ strBytes k ++ w1 ++ [0x3A] ++ w2 ++ b ++ w' ++ [0x2C]) (r := w'' ++ 0x7D :: r) (by rw [h1]; simp)
      rw [← this]; congr 1; simp; omega
    refine (cm_member (d := 0) hw hk hw1 hw2 ih hw' (.inl rfl) h1 hf hlim (by
      rw [if_neg (by decide), obj_close hw'' hlim h2 (.inl htc)]; exact Cmp.ok)).cast ?_ ?_ ?_
    · simp [depthMembers]
    · simp [ofMembers]
    · simp; omega
  · intro w w1 w2 b w' rest k j ms hw hk hw1 hw2 hb hw' _ ih ihr fuel off rem r o h hf
    obtain ⟨f, rfl⟩ : ∃ f, fuel = f + 1 := ⟨fuel - 1, by omega⟩
    have h1 : src.drop off = w ++ (strBytes k ++ (w1 ++ 0x3A :: (w2 ++ (b ++ (w' ++ 0x2C :: (rest ++ 0x7D :: r)))))) := by rw [h]; simp
    have h2 : src.drop (off + w.length + (strBytes k).length + w1.length + 1 + w2.length + b.length + w'.length + 1) = rest ++ 0x7D :: r := by
      have := drop_step (a := w ++ strBytes k ++ w1 ++ [0x3A] ++ w2 ++ b ++ w' ++ [0x2C]) (r := rest ++ 0x7D :: r) (by rw [h1]; simp)
      rw [← this]; congr 1; simp; omega
    have hlen := length_of_drop h1
    simp only [List.length_append, List.length_cons] at hlen
    refine (cm_member (d := depthMembers ms) hw hk hw1 hw2 ih hw' (.inl rfl) h1 hf hlim (by
      rw [if_neg (by decide)]
      exact ihr f _ rem r _ h2 (by omega))).cast ?_ ?_ ?_
    · simp [depthMembers]
    · simp [ofMembers]
    · simp; omega

end
end JustJson
