import Verif.Lemmas.Delegates
/-! # Runs with and without `allow_trailing_commas` -/

namespace JustJson
open Spec

set_option linter.unusedSectionVars false

section
variable [Arch] {src : List UInt8} {g : Bool}

/-- The strict run equals the lenient one, or ends with `IllegalTrailingComma`. -/
def TC {σ δ α : Type} (strict lenient : Out σ (Error δ) α) : Prop :=
  strict = lenient ∨ ∃ e s, strict = .err e s ∧ e.kind = .illegalTrailingComma

theorem TC.rfl' {σ δ α : Type} {o : Out σ (Error δ) α} : TC o o := .inl rfl

theorem TC.bind {σ δ α β : Type} {m m' : M σ (Error δ) α} {f f' : α → M σ (Error δ) β} {s : σ}
    (h : TC (m s) (m' s)) (hf : ∀ a s', m s = .ok a s' → TC (f a s') (f' a s')) :
    TC ((m >>= f) s) ((m' >>= f') s) := by
  rcases h with h | ⟨e, s', h, hk⟩
  · rw [M.bind_eq, M.bind_eq, ← h]
    cases hm : m s with
    | ok a s' => exact hf a s' hm
    | err e s' => exact .inl rfl
    | panic p => exact .inl rfl
  · exact .inr ⟨e, s', M.bind_err h, hk⟩

theorem TC.mapErr {σ δ α : Type} {m m' : M σ (Error δ) α} {k : ErrorKind δ} {s : σ}
    (h : TC (m s) (m' s)) : TC (M.mapErr (eofTo k) m s) (M.mapErr (eofTo k) m' s) := by
  unfold M.mapErr
  rcases h with h | ⟨e, s', h, hk⟩
  · rw [h]; exact .inl rfl
  · refine .inr ⟨_, s', by rw [h], ?_⟩
    unfold eofTo
    rw [hk]
    exact hk

/-- the same configuration, strict about commas -/
abbrev strictC (cfg : ParseConfig) : ParseConfig := { cfg with allowTrailingCommas := false }
/-- the same configuration, lenient about commas -/
abbrev lenientC (cfg : ParseConfig) : ParseConfig := { cfg with allowTrailingCommas := true }

theorem run_trailing (cfg : ParseConfig) : ∀ fuel : Nat,
    (∀ s, TC (readTokens g src (strictC cfg) valueParser fuel s) (readTokens g src (lenientC cfg) valueParser fuel s))
    ∧ (∀ s, TC (readObject g src (strictC cfg) valueParser fuel s) (readObject g src (lenientC cfg) valueParser fuel s))
    ∧ (∀ o s, TC (readObjectLoop g src (strictC cfg) valueParser fuel o s) (readObjectLoop g src (lenientC cfg) valueParser fuel o s))
    ∧ (∀ s, TC (readArray g src (strictC cfg) valueParser fuel s) (readArray g src (lenientC cfg) valueParser fuel s))
    ∧ (∀ a s, TC (readArrayLoop g src (strictC cfg) valueParser fuel a s) (readArrayLoop g src (lenientC cfg) valueParser fuel a s)) := by
  intro fuel
  induction fuel with
  | zero => refine ⟨?_, ?_, ?_, ?_, ?_⟩ <;> (intros; exact TC.rfl')
  | succ fuel ih =>
    obtain ⟨ihT, ihO, ihOL, ihA, ihAL⟩ := ih
    refine ⟨?_, ?_, ?_, ?_, ?_⟩
    · intro s
      rw [readTokens, readTokens]
      refine TC.bind TC.rfl' fun off s1 _ => TC.bind TC.rfl' fun tok s2 _ => ?_
      cases tok with
      | object => exact TC.bind TC.rfl' fun _ s3 _ => TC.mapErr (ihO s3)
      | array => exact TC.bind TC.rfl' fun _ s3 _ => TC.mapErr (ihA s3)
      | _ => exact TC.rfl'
    · intro s
      rw [readObject, readObject]
      refine TC.bind TC.rfl' fun off s1 _ => TC.bind TC.rfl' fun o s2 _ => ?_
      exact TC.bind (ihOL o s2) fun o s3 _ => TC.rfl'
    · intro o s
      rw [readObjectLoop, readObjectLoop]
      refine TC.bind TC.rfl' fun off s1 _ => TC.bind TC.rfl' fun tok s2 _ => ?_
      cases tok with
      | objectEnd =>
        simp only []
        rw [if_neg (by simp), if_pos True.intro]
        refine (M.bind_ok (a := o.isEmpty) (s' := s2) rfl) ▸ ?_
        by_cases hb : o.isEmpty = true
        · rw [if_pos hb]; exact TC.rfl'
        · rw [if_neg hb]
          exact .inr ⟨_, _, rfl, rfl⟩
      | string k =>
        simp only []
        refine TC.bind TC.rfl' fun ok s3 _ => TC.bind TC.rfl' fun off s4 _ => TC.bind TC.rfl' fun tok s5 _ => ?_
        by_cases ht : tok ≠ .colon
        · rw [if_pos ht, if_pos ht]; exact TC.rfl'
        rw [if_neg ht, if_neg ht]
        refine TC.bind TC.rfl' fun off s6 _ => TC.bind (ihT s6) fun v s7 _ => TC.bind TC.rfl' fun o s8 _ =>
          TC.bind TC.rfl' fun off s9 _ => TC.bind TC.rfl' fun tok s10 _ => ?_
        by_cases h1 : tok = .objectEnd
        · rw [if_pos h1, if_pos h1]; exact TC.rfl'
        rw [if_neg h1, if_neg h1]
        by_cases h2 : tok ≠ .comma
        · rw [if_pos h2, if_pos h2]; exact TC.rfl'
        rw [if_neg h2, if_neg h2]
        exact ihOL o s10
      | _ => exact TC.rfl'
    · intro s
      rw [readArray, readArray]
      refine TC.bind TC.rfl' fun off s1 _ => TC.bind TC.rfl' fun o s2 _ => ?_
      exact TC.bind (ihAL o s2) fun o s3 _ => TC.rfl'
    · intro o s
      rw [readArrayLoop, readArrayLoop]
      refine TC.bind TC.rfl' fun off s1 _ => TC.bind TC.rfl' fun k s2 _ => ?_
      by_cases hk : k = some .arrayEnd
      · rw [if_pos hk, if_pos hk]
        refine TC.bind TC.rfl' fun _ s3 _ => ?_
        rw [if_neg (by simp), if_pos rfl]
        refine (M.bind_ok (a := o.isEmpty) (s' := s3) rfl) ▸ ?_
        by_cases hb : o.isEmpty = true
        · rw [if_pos hb]; exact TC.rfl'
        · rw [if_neg hb]
          exact .inr ⟨_, _, rfl, rfl⟩
      · rw [if_neg hk, if_neg hk]
        refine TC.bind (ihT s2) fun v s7 _ => TC.bind TC.rfl' fun off s8 _ => TC.bind TC.rfl' fun o s8 _ =>
          TC.bind TC.rfl' fun off s9 _ => TC.bind TC.rfl' fun tok s10 _ => ?_
        by_cases h1 : tok = .arrayEnd
        · rw [if_pos h1, if_pos h1]; exact TC.rfl'
        rw [if_neg h1, if_neg h1]
        by_cases h2 : tok ≠ .comma
        · rw [if_pos h2, if_pos h2]; exact TC.rfl'
        rw [if_neg h2, if_neg h2]
        exact ihAL o s10

theorem parse_trailing (cfg : ParseConfig) :
    TC (parseBytes g src (strictC cfg) valueParser ()) (parseBytes g src (lenientC cfg) valueParser ()) := by
  unfold parseBytes parseM
  exact TC.bind ((run_trailing cfg _).1 _) fun v s _ => TC.rfl'

/-! ## Grammar: lenient texts include strict ones -/

theorem gvalue_mono {tc tc' : Bool} (htc : tc = true → tc' = true) {b : List UInt8} {j : Json} (h : GValue tc b j) :
    GValue tc' b j := by
  refine GValue.rec (motive_1 := fun b j _ => GValue tc' b j) (motive_2 := fun b js _ => GElems tc' b js)
    (motive_3 := fun b ms _ => GMembers tc' b ms) ?_ ?_ ?_ ?_ ?_ ?_ ?_ ?_ ?_ ?_ ?_ ?_ ?_ ?_ ?_ h
  · exact .null
  · exact .true
  · exact .false
  · exact fun n h => .num n h
  · exact fun s h => .str s h
  · exact fun w h => .emptyArr w h
  · exact fun b js _ h => .arr b js h
  · exact fun w h => .emptyObj w h
  · exact fun b js _ h => .obj b js h
  · exact fun w b w' j h1 _ h3 h2 => .one w b w' j h1 h2 h3
  · exact fun w b w' w'' j h1 h2 _ h4 h5 h3 => .trailing w b w' w'' j (htc h1) h2 h3 h4 h5
  · exact fun w b w' r j js h1 _ h2 _ h3 h4 => .cons w b w' r j js h1 h3 h2 h4
  · exact fun w w1 w2 b w' k j h1 h2 h3 h4 _ h5 h6 => .one w w1 w2 b w' k j h1 h2 h3 h4 h6 h5
  · exact fun w w1 w2 b w' w'' k j h1 h2 h3 h4 h5 _ h6 h7 h8 => .trailing w w1 w2 b w' w'' k j (htc h1) h2 h3 h4 h5 h8 h6 h7
  · exact fun w w1 w2 b w' r k j ms h1 h2 h3 h4 _ h5 _ h6 h7 => .cons w w1 w2 b w' r k j ms h1 h2 h3 h4 h6 h5 h7

theorem text_mono {tc tc' : Bool} (htc : tc = true → tc' = true) {s : List UInt8} {j : Json} (h : Text tc s j) :
    Text tc' s j := by
  obtain ⟨w, b, w', h1, h2, h3, h4⟩ := h
  exact ⟨w, b, w', h1, gvalue_mono htc h2, h3, h4⟩

end
end JustJson
