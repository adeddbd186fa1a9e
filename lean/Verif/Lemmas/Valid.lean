import Verif.Lemmas.Trailing
/-! # Well-formed trees, and the `Value` built from one -/

namespace JustJson
open Spec

set_option linter.unusedSectionVars false

theorem Json.induct {P : Json → Prop} {Q : List (List Item × Json) → Prop} {R : List Json → Prop}
    (null : P .null) (bool : ∀ b, P (.bool b)) (num : ∀ n, P (.num n)) (str : ∀ s, P (.str s))
    (obj : ∀ es, Q es → P (.obj es)) (arr : ∀ vs, R vs → P (.arr vs))
    (onil : Q []) (ocons : ∀ k v es, P v → Q es → Q ((k, v) :: es))
    (anil : R []) (acons : ∀ v vs, P v → R vs → R (v :: vs)) :
    (∀ v, P v) ∧ (∀ es, Q es) ∧ ∀ vs, R vs := by
  have h : ∀ v, P v := by
    intro v
    refine Json.rec (motive_1 := P) (motive_2 := R) (motive_3 := Q) (motive_4 := fun e => P e.2)
      null bool num str arr obj anil acons onil ?_ ?_ v
    · rintro ⟨k, v⟩ es h1 h2; exact ocons k v es h1 h2
    · intro k v h; exact h
  refine ⟨h, ?_, ?_⟩
  · intro es
    induction es with
    | nil => exact onil
    | cons e es ih => exact ocons e.1 e.2 es (h _) ih
  · intro vs
    induction vs with
    | nil => exact anil
    | cons v vs ih => exact acons v vs (h _) ih

mutual
/-- All literals and strings of the tree are well formed. -/
def JValid : Json → Prop
  | .num n => n.Valid
  | .str s => ItemsValid s
  | .arr js => JsValid js
  | .obj ms => MsValid ms
  | _ => True
/-- of elements -/
def JsValid : List Json → Prop
  | [] => True
  | j :: js => JValid j ∧ JsValid js
/-- of members -/
def MsValid : List (List Item × Json) → Prop
  | [] => True
  | (k, j) :: ms => ItemsValid k ∧ JValid j ∧ MsValid ms
end

theorem gvalue_valid {tc : Bool} {b : List UInt8} {j : Json} (h : GValue tc b j) : JValid j := by
  refine GValue.rec (motive_1 := fun b j _ => JValid j) (motive_2 := fun b js _ => JsValid js)
    (motive_3 := fun b ms _ => MsValid ms) ?_ ?_ ?_ ?_ ?_ ?_ ?_ ?_ ?_ ?_ ?_ ?_ ?_ ?_ ?_ h
  all_goals (intros; simp_all [JValid, JsValid, MsValid])

theorem text_valid {tc : Bool} {s : List UInt8} {j : Json} (h : Text tc s j) : JValid j := by
  obtain ⟨w, b, w', h1, h2, h3, h4⟩ := h
  exact gvalue_valid h2

section
variable [Arch]

theorem canonStr_denotes {is : List Item} (h : ItemsValid is) : StrDenotes (canonStr is) is :=
  ⟨bodyChars is, rfl, utf8_bodyChars h⟩

theorem canonNum_denotes {n : NumLit} (h : n.Valid) : NumDenotes (canonNum n) n := utf8_num h

theorem ofJson_denotes : (∀ j, JValid j → Denotes (ofJson j) j) ∧ (∀ ms, MsValid ms → DenotesMembers (ofMembers ms) ms)
    ∧ ∀ js, JsValid js → DenotesElems (ofJsons js) js := by
  apply Json.induct
  · intro _; rw [ofJson]; exact .null
  · intro b _; rw [ofJson]; exact .bool b
  · intro n h; rw [ofJson]; exact .num _ _ (canonNum_denotes h)
  · intro n h; rw [ofJson]; exact .str _ _ (canonStr_denotes h)
  · intro ms ih h; rw [ofJson]; exact .obj _ _ (ih h)
  · intro js ih h; rw [ofJson]; exact .arr _ _ (ih h)
  · intro _; rw [ofMembers]; exact .nil
  · intro k j ms h1 h2 h; rw [ofMembers]; exact .cons _ _ _ _ _ _ (canonStr_denotes h.1) (h1 h.2.1) (h2 h.2.2)
  · intro _; rw [ofJsons]; exact .nil
  · intro j js h1 h2 h; rw [ofJsons]; exact .cons _ _ _ _ (h1 h.1) (h2 h.2)

theorem kind_ofJson (j : Json) : (ofJson j).kind = j.kind := by cases j <;> rfl

end
end JustJson
