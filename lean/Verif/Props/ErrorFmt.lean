import Verif.Model.ErrorFmt
import Verif.Lemmas.Write
import Verif.Props.Messages
import Verif.Props.Write
/-! # C88: printing an error to a writer that may fail -/

namespace JustJson

section
variable {F : Writer}

theorem piece_calls (s : Str) (w : F.W) : writePiece F s w = .ok (makeCalls F w [.str s]) := by
  unfold writePiece
  simp only [makeCalls, WCall.make]
  cases F.writeStr w s with
  | mk w' b => cases b <;> rfl

theorem nat_calls (n : Nat) (w : F.W) : writeNat F n w = .ok (makeCalls F w [.str (showNat n)]) := piece_calls _ w

/-- calls, and then whatever comes if they all succeed -/
def thenWrite (F : Writer) (cs : List WCall) (k : F.W → Res (F.W × Bool)) (w : F.W) : Res (F.W × Bool) :=
  match makeCalls F w cs with
  | (w', true) => k w'
  | (w', false) => .ok (w', false)

theorem and_then {a k : F.W → Res (F.W × Bool)} {cs : List WCall} (ha : ∀ w, a w = .ok (makeCalls F w cs)) (w : F.W) :
    andWrite F a k w = thenWrite F cs k w := by
  unfold andWrite thenWrite
  rw [ha]
  rcases makeCalls F w cs with ⟨w', _ | _⟩ <;> rfl

theorem then_then (cs ds : List WCall) (k : F.W → Res (F.W × Bool)) (w : F.W) :
    thenWrite F cs (thenWrite F ds k) w = thenWrite F (cs ++ ds) k w := by
  induction cs generalizing w with
  | nil => rfl
  | cons c cs ih =>
    unfold thenWrite at ih ⊢
    rw [List.cons_append, makeCalls, makeCalls]
    rcases c.make F w with ⟨w', _ | _⟩
    · rfl
    · exact ih w'

theorem then_calls (cs ds : List WCall) (w : F.W) :
    thenWrite F cs (fun w => .ok (makeCalls F w ds)) w = .ok (makeCalls F w (cs ++ ds)) := by
  induction cs generalizing w with
  | nil => rfl
  | cons c cs ih =>
    unfold thenWrite at ih ⊢
    rw [List.cons_append, makeCalls, makeCalls]
    rcases c.make F w with ⟨w', _ | _⟩
    · rfl
    · exact ih w'

end

theorem texts3 (a b c : Str) (cs : List WCall) :
    WCall.texts ([.str a, .str b, .str c] ++ cs) = a ++ (b ++ (c ++ WCall.texts cs)) := by
  simp [WCall.texts, WCall.text]

theorem texts3_ (a b c : Str) : WCall.texts ([.str a] ++ ([.str b] ++ [.str c])) = a ++ (b ++ c) := by
  simp [WCall.texts, WCall.text]

theorem texts1 (a : Str) : WCall.texts [.str a] = a := List.append_nil a

/-- the error that a delegate returned -/
def ErrorKind.ofDelegate? {δ : Type} : ErrorKind δ → Option δ
  | .errorFromDelegate x => some x
  | _ => none

theorem kind_calls {δ : Type} (k : ErrorKind δ) (h : k.ofDelegate? = none) : ∃ cs : List WCall,
    (∀ shown, WCall.texts cs = k.display shown)
    ∧ ∀ (F : Writer) (shown : DisplayImpl F δ) (opts : FmtOptions) (w : F.W), k.fmt F shown opts w = .ok (makeCalls F w cs) := by
  cases k with
  | errorFromDelegate x => cases h
  | unexpected b =>
    refine ⟨[.str "unexpected character: '".toList] ++ ([.str (showNat b.toNat)] ++ [.str "'".toList]), ?_, ?_⟩
    · intro shown
      exact texts3_ _ _ _
    · intro F shown opts w
      show andWrite F (writePiece F _) (andWrite F (writeNat F b.toNat) (writePiece F _)) w = _
      rw [and_then (piece_calls _), ← then_calls]
      congr 1
      funext w
      rw [and_then (nat_calls _), ← then_calls]
      congr 1
      funext w
      exact piece_calls _ w
  | _ =>
    exact ⟨[.str _], fun shown => List.append_nil _, fun F shown opts w => piece_calls _ w⟩

theorem error_then {δ : Type} (F : Writer) (shown : DisplayImpl F δ) (opts : FmtOptions) (e : Error δ) (w : F.W) :
    e.fmt F shown opts w
      = thenWrite F [.str "error at ".toList, .str (showNat e.offset), .str ": ".toList] (e.kind.fmt F shown .plain) w := by
  unfold Error.fmt
  rw [and_then (piece_calls _)]
  rw [show [WCall.str "error at ".toList, .str (showNat e.offset), .str ": ".toList]
    = [.str "error at ".toList] ++ ([.str (showNat e.offset)] ++ [.str ": ".toList]) from rfl, ← then_then]
  congr 1
  funext w
  rw [and_then (nat_calls _), ← then_then]
  congr 1
  funext w
  exact and_then (piece_calls _) w

/-- **C88.** Printing an error makes the same calls on every formatter, whatever its width, precision and other options, one
after the other until one fails, and returns whether one failed; their texts are the text of `to_string()`. An error of the
parser itself never uses the delegate's `Display`. -/
theorem C88_any_formatter {δ : Type} (e : Error δ) (h : ∀ x, e.kind ≠ .errorFromDelegate x) : ∃ cs : List WCall,
    (∀ shown, WCall.texts cs = e.display shown)
    ∧ ∀ (F : Writer) (shown : DisplayImpl F δ) (opts : FmtOptions) (w : F.W), e.fmt F shown opts w = .ok (makeCalls F w cs) := by
  have hn : e.kind.ofDelegate? = none := by
    cases hk : e.kind with
    | errorFromDelegate x => exact absurd hk (h x)
    | _ => rfl
  obtain ⟨cs, h1, h2⟩ := kind_calls e.kind hn
  refine ⟨[.str "error at ".toList, .str (showNat e.offset), .str ": ".toList] ++ cs, ?_, ?_⟩
  · intro shown
    refine (texts3 _ _ _ cs).trans ?_
    rw [h1 shown]
    rfl
  · intro F shown opts w
    rw [error_then, ← then_calls]
    congr 1
    funext w
    exact h2 F shown .plain w

/-- **C88.** For an error from the delegate the prefix is written, up to a call that fails; if none does, the rest is the
delegate's own `Display`, with the options of a plain `{}`, whatever it writes and however it ends. -/
theorem C88_delegate_display {δ : Type} (off : Nat) (x : δ) (F : Writer) (shown : DisplayImpl F δ) (opts : FmtOptions) (w : F.W) :
    ∃ cs : List WCall, (∀ text : δ → Str, WCall.texts cs ++ text x = Error.display text ⟨off, .errorFromDelegate x⟩)
    ∧ Error.fmt F shown opts ⟨off, .errorFromDelegate x⟩ w =
      match makeCalls F w cs with
      | (w', true) => shown .plain x w'
      | (w', false) => .ok (w', false) := by
  refine ⟨[.str "error at ".toList, .str (showNat off), .str ": ".toList] ++ [.str "error from delegate: ".toList], ?_, ?_⟩
  · intro text
    have e : ∀ a b c d t : Str, a ++ (b ++ (c ++ d)) ++ t = a ++ (b ++ (c ++ (d ++ t))) := by
      intro a b c d t
      simp only [List.append_assoc]
    rw [texts3, texts1, e]
    rfl
  · rw [error_then]
    refine Eq.trans ?_ (then_then _ _ (shown .plain x) w)
    congr 1
    funext w
    exact and_then (piece_calls _) w

/-- **C88.** The same for an `ErrorKind` printed on its own. -/
theorem C88_kinds {δ : Type} (k : ErrorKind δ) : ∃ cs : List WCall,
    (∀ F (shown : DisplayImpl F δ) opts w, k.fmt F shown opts w =
      match makeCalls F w cs, k with
      | (w', true), .errorFromDelegate x => shown .plain x w'
      | r, _ => .ok r)
    ∧ ∀ text : δ → Str, k.display text = WCall.texts cs ++ match k with
      | .errorFromDelegate x => text x
      | _ => [] := by
  by_cases hk : ∃ x, k = .errorFromDelegate x
  · obtain ⟨x, rfl⟩ := hk
    refine ⟨[.str "error from delegate: ".toList], fun F shown opts w => ?_, fun text => ?_⟩
    · refine (and_then (piece_calls _) w).trans ?_
      unfold thenWrite
      rcases makeCalls F w _ with ⟨w', _ | _⟩ <;> rfl
    · rw [texts1]
      rfl
  · have hn : k.ofDelegate? = none := by
      cases k with
      | errorFromDelegate x => exact absurd ⟨x, rfl⟩ hk
      | _ => rfl
    obtain ⟨cs, h1, h2⟩ := kind_calls k hn
    refine ⟨cs, fun F shown opts w => ?_, fun text => ?_⟩
    · rw [h2]
      split
      · exact absurd ⟨_, rfl⟩ hk
      · rfl
    · rw [h1 text]
      split
      · exact absurd ⟨_, rfl⟩ hk
      · rw [List.append_nil]

/-- **C88.** As seen by a formatter that records the calls it gets and may fail at any of them, printing an error of the parser
either writes exactly the text and returns `Ok`, or stops at the first failure, having written a beginning of the text, and
returns `Err`. The same holds of an error from a delegate whose `Display` makes the calls `made` until one fails. -/
theorem C88_failures {δ : Type} (e : Error δ) (made : δ → List WCall) (fails : Nat → Bool) (opts : FmtOptions) :
    ∃ log ok, e.fmt (logger fails) (fun _ x w => .ok (makeCalls (logger fails) w (made x))) opts ([] : List (WCall × Bool)) = .ok (log, ok)
      ∧ ((ok = true ∧ (∀ c ∈ log, c.2 = true) ∧ WCall.texts (log.map Prod.fst) = e.display (fun x => WCall.texts (made x)))
        ∨ (ok = false ∧ ∃ before c rest, log = before ++ [(c, false)] ∧ (∀ c ∈ before, c.2 = true)
            ∧ e.display (fun x => WCall.texts (made x)) = WCall.texts (before.map Prod.fst) ++ c.text ++ rest)) := by
  have hc : ∃ cs, WCall.texts cs = e.display (fun x => WCall.texts (made x))
      ∧ e.fmt (logger fails) (fun _ x w => .ok (makeCalls (logger fails) w (made x))) opts ([] : List (WCall × Bool))
        = .ok (makeCalls (logger fails) [] cs) := by
    obtain ⟨off, k⟩ := e
    by_cases hk : ∃ x, k = .errorFromDelegate x
    · obtain ⟨x, rfl⟩ := hk
      obtain ⟨cs, h1, h2⟩ := C88_delegate_display off x (logger fails)
        (fun _ x w => .ok (makeCalls (logger fails) w (made x))) opts ([] : List (WCall × Bool))
      refine ⟨cs ++ made x, ?_, ?_⟩
      · rw [← h1]
        exact List.flatMap_append
      · rw [h2]
        exact then_calls (F := logger fails) cs (made x) []
    · obtain ⟨cs, h1, h2⟩ := C88_any_formatter ⟨off, k⟩ (fun x hx => hk ⟨x, hx⟩)
      exact ⟨cs, h1 _, h2 (logger fails) _ opts []⟩
  obtain ⟨cs, h1, h2⟩ := hc
  obtain ⟨pre, post, log, e1, e2, h3⟩ := @makeCalls_logger arch64 fails cs []
  have hl : log.map Prod.fst = pre := by rw [e2, List.map_map]; simp [Function.comp_def]
  have ht : ∀ c ∈ log, c.2 = true := by
    intro c hc
    rw [e2] at hc
    obtain ⟨c, _, rfl⟩ := List.mem_map.mp hc
    rfl
  rcases h3 with ⟨h3, h4⟩ | ⟨c, p', h3, h4⟩
  · refine ⟨log, true, ?_, .inl ⟨rfl, ht, ?_⟩⟩
    · rw [h2, h4]; rfl
    · rw [hl, ← h1, e1, h3, List.append_nil]
  · refine ⟨log ++ [(c, false)], false, ?_, .inr ⟨rfl, log, c, WCall.texts p', rfl, ht, ?_⟩⟩
    · rw [h2, h4]; rfl
    · rw [hl, ← h1, e1, h3]
      simp [WCall.texts]

/-! ## Instances: each theorem above applied to a concrete case that meets its hypotheses -/
section Instances

-- `error at 13: unexpected character: '125'` in six calls; the formatter fails at the fifth
example := C88_any_formatter (δ := Str) ⟨13, .unexpected 0x7D⟩ (fun _ => nofun)
example : (match Error.fmt (logger (· == 4)) (fun _ (x : Empty) _ => x.elim) .plain ⟨13, .unexpected 0x7D⟩ ([] : List (WCall × Bool)) with
    | .ok (log, ok) => some (log.map (fun c => (String.ofList c.1.text, c.2)), ok)
    | .panic _ => none)
    = some ([("error at ", true), ("13", true), (": ", true), ("unexpected character: '", true), ("125", false)], false) := by
  decide +kernel
-- a delegate's `Display` that pads to a width is not told the width
example := C88_delegate_display (δ := Str) 13 "no".toList stringWriter
  (fun o s w => .ok (w ++ s ++ List.replicate (o.width.getD 0 - s.length) o.fill, true)) ⟨'*', some 40, none, false, false, false⟩ ([] : Str)
example : (match Error.fmt stringWriter (fun o s w => .ok (w ++ s ++ List.replicate (o.width.getD 0 - s.length) o.fill, true))
      ⟨'*', some 40, none, false, false, false⟩ ⟨13, .errorFromDelegate "no".toList⟩ ([] : Str) with
    | .ok (w, ok) => some (String.ofList w, ok)
    | .panic _ => none) = some ("error at 13: error from delegate: no", true) := by
  decide +kernel
example := C88_failures (δ := Str) ⟨13, .errorFromDelegate "no".toList⟩ (fun s => s.map .char) (· == 5) .plain
example := C88_kinds (δ := Str) (.errorFromDelegate "no".toList)
example := C88_kinds (δ := Str) (.unexpected 0x7D)

end Instances
end JustJson
