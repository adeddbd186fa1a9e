import Verif.Props.Calls
import Verif.Lemmas.WriteFmt
/-! # C29, C77: writers that have a `write_fmt` of their own -/

namespace JustJson
open Spec

set_option linter.unusedSectionVars false

section
variable [Arch]

/-- `write_json_to`, `pretty_write_json_to`, `pretty_write_json_to_custom`, `Display`, on a writer with all three methods
of `fmt::Write`. (`Display` writes to a `fmt::Formatter`, which has a `write_fmt` of its own.) -/
def WriteForm.writeFmt (f : WriteForm) (G : FmtWriter) (v : Value) (w : G.W) : Res (G.W × Bool) :=
  match f with
  | .compact => v.fmtJsonTo G w
  | .pretty => v.prettyFmtJsonTo G w
  | .custom i l => v.prettyFmtJsonToCustom G i l w
  | .display a => if a then v.prettyFmtJsonTo G w else v.fmtJsonTo G w

/-- The arguments of the calls of `write_fmt` among some calls, in order. -/
def FCall.args : List FCall → List FmtArgs
  | [] => []
  | .str _ :: cs => FCall.args cs
  | .fmt a :: cs => a :: FCall.args cs

theorem FCall.args_append (a b : List FCall) : FCall.args (a ++ b) = FCall.args a ++ FCall.args b := by
  induction a with
  | nil => rfl
  | cons c a ih => cases c with
    | str s => exact ih
    | fmt x => exact congrArg (x :: ·) ih

/-- the arguments for a string -/
def fmtArgsOf (s : JsonString) : FmtArgs := ⟨['"'], s, ['"']⟩

theorem args_indF (pretty : Bool) (indent : Str) (l : Nat) (b : Bool) : FCall.args (indF pretty indent l b) = [] := by
  unfold indF
  split
  · induction l with
    | zero => rfl
    | succ l ih => exact ih
  · rfl

theorem args_nlF (pretty : Bool) (indent lineEnding : Str) (l : Nat) (b : Bool) : FCall.args (nlF pretty indent lineEnding l b) = [] := by
  unfold nlF
  split
  · rw [FCall.args_append, args_indF]; rfl
  · rfl

theorem args_valueF (pretty : Bool) (indent lineEnding : Str) :
    (∀ (v : Value) l b, FCall.args (valueF pretty indent lineEnding l b v) = v.strings.map fmtArgsOf)
    ∧ (∀ (es : Object) l b, FCall.args (entriesF pretty indent lineEnding l b es) = (Value.stringsEntries es).map fmtArgsOf)
    ∧ (∀ (vs : List Value) l b, FCall.args (elemsF pretty indent lineEnding l b vs) = (Value.stringsElems vs).map fmtArgsOf) := by
  have sep : ∀ c : Bool, FCall.args ((if c = true then [] else [.str [',']]) ++ (if pretty = true then [.str lineEnding] else [])) = [] := by
    intro c; cases c <;> cases pretty <;> rfl
  apply Value.induct
  · intro l b; rw [valueF, FCall.args_append, args_indF]; rfl
  · intro t l b; rw [valueF, FCall.args_append, args_indF]; rfl
  · intro n l b; rw [valueF, FCall.args_append, args_indF]; rfl
  · intro s l b; rw [valueF, FCall.args_append, args_indF]; rfl
  · intro es ih l b
    cases es with
    | nil => rw [valueF, FCall.args_append, args_indF]; rfl
    | cons e es =>
      rw [valueF]
      simp only [FCall.args_append, args_indF, args_nlF, ih]
      simp [FCall.args, Value.strings]
  · intro es ih l b
    cases es with
    | nil => rw [valueF, FCall.args_append, args_indF]; rfl
    | cons e es =>
      rw [valueF]
      simp only [FCall.args_append, args_indF, args_nlF, ih]
      simp [FCall.args, Value.strings]
  · intro l b; rfl
  · intro k v es ihv ih l b
    have hs := sep es.isEmpty
    rw [entriesF, FCall.args_append, FCall.args_append, FCall.args_append, FCall.args_append, args_indF, FCall.args_append, hs, ihv, ih]
    simp [FCall.args, Value.stringsEntries, fmtArgsOf]
  · intro l b; rfl
  · intro v es ihv ih l b
    have hs := sep es.isEmpty
    rw [elemsF, FCall.args_append, FCall.args_append, hs, ihv, ih]
    simp [Value.stringsElems]

theorem form_fmt (f : WriteForm) (v : Value) : ∃ cs : List FCall, (∀ (G : FmtWriter) w, f.writeFmt G v w = makeFmtCalls G w cs)
    ∧ (∀ body, cs.flatMap (FCall.plain body) = f.calls body v) ∧ FCall.args cs = v.strings.map fmtArgsOf := by
  have c : ∃ cs : List FCall, (∀ (G : FmtWriter) w, v.fmtJson G false [] [] w = makeFmtCalls G w cs)
      ∧ (∀ body, cs.flatMap (FCall.plain body) = compactCalls body v) ∧ FCall.args cs = v.strings.map fmtArgsOf :=
    ⟨_, fun G w => fmtJson_result false [] [] v w, fun body => (compact_plain true).1 v 0, (args_valueF false [] []).1 v 0 true⟩
  have p : ∀ i l, ∃ cs : List FCall, (∀ (G : FmtWriter) w, v.fmtJson G true i l w = makeFmtCalls G w cs)
      ∧ (∀ body, cs.flatMap (FCall.plain body) = prettyCalls body i l 0 v) ∧ FCall.args cs = v.strings.map fmtArgsOf :=
    fun i l => ⟨_, fun G w => fmtJson_result true i l v w, fun body => (pretty_plain i l).1 v 0 true, (args_valueF true i l).1 v 0 true⟩
  cases f with
  | compact => exact c
  | pretty => exact p _ _
  | custom i l => exact p i l
  | display a =>
    cases a with
    | true => exact p _ _
    | false => exact c

/-- **C77.** On a writer with a `write_fmt` of its own, writing any value makes a series of calls that is the same whatever
the writer, up to and including the first that fails (or panics), and returns `Ok` if and only if all succeed: it is the
series for writers with the provided `write_fmt`, where the calls for each string literal are one call of `write_fmt`, with
the string between two quotes; and there is such a call for each string of the value, in order. -/
theorem C77_any_write_fmt (f : WriteForm) (v : Value) :
    ∃ cs : List FCall, (∀ (G : FmtWriter) (w : G.W), f.writeFmt G v w = makeFmtCalls G w cs)
      ∧ (∀ body : JsonString → Str, cs.flatMap (FCall.plain body) = f.calls body v)
      ∧ FCall.args cs = v.strings.map (fun s => ⟨['"'], s, ['"']⟩) := form_fmt f v

/-- **C29.** A writer that has the provided `write_fmt` gets the calls of the other theorems about writers. -/
theorem C29_provided_write_fmt (f : WriteForm) (v : Value) (F : Writer) (w : F.W) :
    f.writeFmt F.withDefault v w = f.write F v w := by
  cases f with
  | compact => exact fmtJson_default false [] [] v w
  | pretty => exact fmtJson_default true _ _ v w
  | custom i l => exact fmtJson_default true i l v w
  | display a =>
    cases a with
    | true => exact fmtJson_default true _ _ v w
    | false => exact fmtJson_default false [] [] v w

theorem makeFmtCalls_logger (fails : Nat → Bool) (cs : List FCall) : ∀ w : List (FCall × Bool),
    ∃ log ok, makeFmtCalls (fmtLogger fails) w cs = .ok (w ++ log, ok)
      ∧ ((ok = true ∧ log = cs.map (fun c => (c, true)))
        ∨ (ok = false ∧ ∃ before c rest, cs = before ++ c :: rest ∧ log = before.map (fun c => (c, true)) ++ [(c, false)])) := by
  induction cs with
  | nil => intro w; exact ⟨[], true, by rw [makeFmtCalls, List.append_nil], .inl ⟨rfl, rfl⟩⟩
  | cons c cs ih =>
    intro w
    have e : makeFmtCalls (fmtLogger fails) w (c :: cs) = (match fails w.length with
        | false => makeFmtCalls (fmtLogger fails) (w ++ [(c, true)]) cs
        | true => .ok (w ++ [(c, false)], false)) := by
      cases c with
      | str s => rw [makeFmtCalls]; simp only []; cases fails w.length <;> rfl
      | fmt s => rw [makeFmtCalls]; simp only []; cases fails w.length <;> rfl
    rw [e]
    cases fails w.length with
    | true => exact ⟨[(c, false)], false, rfl, .inr ⟨rfl, [], c, cs, rfl, rfl⟩⟩
    | false =>
      obtain ⟨log, ok, h1, h2⟩ := ih (w ++ [(c, true)])
      refine ⟨(c, true) :: log, ok, by simp only []; rw [h1]; simp, ?_⟩
      rcases h2 with ⟨h2, h3⟩ | ⟨h2, before, c', rest, h3, h4⟩
      · exact .inl ⟨h2, by rw [h3]; rfl⟩
      · exact .inr ⟨h2, c :: before, c', rest, by rw [h3]; rfl, by rw [h4]; rfl⟩

/-- **C29.** As seen by a writer that records the calls it gets, of `write_str` and of `write_fmt`, and may fail at any of
them: either all succeed, they amount to exactly the text, and the call returns `Ok`; or one fails, nothing comes after it,
the text of what came up to it is a prefix of the whole text, and the call returns `Err`. -/
theorem C29_write_fmt_failures (f : WriteForm) (v : Value) (body : JsonString → Str)
    (h : ∀ s ∈ v.strings, s.asJson = .ok (body s)) (fails : Nat → Bool) :
    ∃ out log ok, f.text v = .ok out ∧ f.writeFmt (fmtLogger fails) v ([] : List (FCall × Bool)) = .ok (log, ok)
      ∧ ((ok = true ∧ (∀ e ∈ log, e.2 = true) ∧ WCall.texts ((log.map Prod.fst).flatMap (FCall.plain body)) = out)
        ∨ (ok = false ∧ ∃ before c rest, log = before ++ [(c, false)] ∧ (∀ e ∈ before, e.2 = true)
            ∧ out = WCall.texts ((before.map Prod.fst).flatMap (FCall.plain body)) ++ WCall.texts (c.plain body) ++ rest)) := by
  obtain ⟨cs, h1, h2, _⟩ := form_fmt f v
  have ht : f.text v = .ok (WCall.texts (f.calls body v)) := by
    obtain ⟨t, e1, e2⟩ := form_tr f v
    have h3 := C77_calls f v body h stringWriter ([] : Str)
    rw [e1] at h3
    unfold Tr.result at h3
    rw [makeCalls_string, makeCalls_string] at h3
    rw [e2]
    cases hp : t.panic with
    | some p => rw [hp] at h3; cases h3
    | none =>
      rw [hp] at h3
      injection h3 with h3
      injection h3 with h3
      simpa using h3
  obtain ⟨log, ok, h3, h4⟩ := makeFmtCalls_logger fails cs []
  refine ⟨_, log, ok, ht, by rw [h1, h3]; rfl, ?_⟩
  have fst : ∀ l : List FCall, (l.map (fun c => (c, true))).map Prod.fst = l := by
    intro l; rw [List.map_map]; simp [Function.comp_def]
  have snd : ∀ l : List FCall, ∀ e ∈ l.map (fun c => (c, true)), e.2 = true := by
    intro l e he
    obtain ⟨c, _, rfl⟩ := List.mem_map.mp he
    rfl
  rw [← h2 body]
  rcases h4 with ⟨h4, rfl⟩ | ⟨h4, before, c, rest, h5, rfl⟩
  · exact .inl ⟨h4, snd _, by rw [fst]⟩
  · refine .inr ⟨h4, _, c, WCall.texts (rest.flatMap (FCall.plain body)), rfl, snd _, ?_⟩
    rw [fst, h5, List.flatMap_append, List.flatMap_cons, texts_append, texts_append, List.append_assoc]

end

/-! ## Instances: each theorem above applied to a concrete case that meets its hypotheses -/
section Instances
attribute [local instance] arch64

/-- the calls for the example -/
def fmtCallsEx : List FCall :=
  match builtEx.strings with
  | [k, s] => [.str ['{'], .fmt ⟨['"'], k, ['"']⟩, .str [':'], .str ['['], .str ['7'], .str [','], .str ['['], .str [']'],
    .str [','], .fmt ⟨['"'], s, ['"']⟩, .str [']'], .str ['}']]
  | _ => []

example : builtEx.strings.length = 2 := by decide +kernel

example : WriteForm.compact.writeFmt (fmtLogger (fun _ => false)) builtEx ([] : List (FCall × Bool))
    = .ok (fmtCallsEx.map (fun c => (c, true)), true) := by decide +kernel

/-- one that fails at the second string -/
example : WriteForm.compact.writeFmt (fmtLogger (fun i => i = 9)) builtEx ([] : List (FCall × Bool))
    = .ok ((fmtCallsEx.take 9).map (fun c => (c, true)) ++ (fmtCallsEx.drop 9).head?.toList.map (fun c => (c, false)), false) := by
  decide +kernel

example := C77_any_write_fmt .pretty builtEx
example := C29_provided_write_fmt .pretty builtEx stringWriter []
example := C29_write_fmt_failures .pretty builtEx callsBody (by decide +kernel) (fun i => i = 9)

end Instances
end JustJson
