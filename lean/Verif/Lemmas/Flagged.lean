import Verif.Lemmas.Opaque
import Verif.Spec.Replay
/-! # Any delegate, made truthful

Where trailing commas are allowed nothing is asked of objects and arrays, so a delegate there parses like a truthful one: the one
whose objects and arrays carry a flag that says whether anything is in them. -/

namespace JustJson
set_option linter.unusedSectionVars false
section
variable [Arch]

/-! ## Replays of tied delegates -/

section
variable {cfg : ParseConfig} {D E : Delegate} (T : Tie cfg D E)

/-- Related entries of the stack of a replay. -/
inductive Tie.Cell : Frame D → Frame E → Prop where
  | value {v v'} : T.value v v' → Cell (.value v) (.value v')
  | object {o o'} : T.object o o' → Cell (.object o) (.object o')
  | entry {o o' k k'} : T.object o o' → T.key k k' → Cell (.entry o k) (.entry o' k')
  | array {a a'} : T.array a a' → Cell (.array a) (.array a')

/-- Related stacks. -/
inductive Tie.Cells : List (Frame D) → List (Frame E) → Prop where
  | nil : Cells [] []
  | cons {p q st st'} : T.Cell p q → Cells st st' → Cells (p :: st) (q :: st')

theorem call_akin (ev : Event) {fs fs'} (h : T.Cells fs fs') {d e} (hs : T.state d e) :
    Akin T.state T.error T.Cells (ev.call D fs d) (ev.call E fs' e) := by
  have val : ∀ {m n} {fs fs'}, T.Cells fs fs' → Akin T.state T.error T.value (m d) (n e) →
      Akin T.state T.error T.Cells ((do return Frame.value (← m) :: fs : M D.σ D.Err _) d) ((do return Frame.value (← n) :: fs' : M E.σ E.Err _) e) := by
    intro m n fs fs' h hm
    exact akin_bind hm fun a b d e hv hs => akin_pure (.cons (.value hv) h) hs
  have obj : ∀ {m n} {fs fs'}, T.Cells fs fs' → Akin T.state T.error T.object (m d) (n e) →
      Akin T.state T.error T.Cells ((do return Frame.object (← m) :: fs : M D.σ D.Err _) d) ((do return Frame.object (← n) :: fs' : M E.σ E.Err _) e) := by
    intro m n fs fs' h hm
    exact akin_bind hm fun a b d e hv hs => akin_pure (.cons (.object hv) h) hs
  have arr : ∀ {m n} {fs fs'}, T.Cells fs fs' → Akin T.state T.error T.array (m d) (n e) →
      Akin T.state T.error T.Cells ((do return Frame.array (← m) :: fs : M D.σ D.Err _) d) ((do return Frame.array (← n) :: fs' : M E.σ E.Err _) e) := by
    intro m n fs fs' h hm
    exact akin_bind hm fun a b d e hv hs => akin_pure (.cons (.array hv) h) hs
  cases ev with
  | null => exact val h (T.null _ _ hs)
  | boolean b => exact val h (T.boolean _ _ _ hs)
  | number b => exact val h (T.number _ _ _ hs)
  | string b => exact val h (T.string _ _ _ hs)
  | beginObject => exact obj h (T.beginObject _ _ hs)
  | beginArray => exact arr h (T.beginArray _ _ hs)
  | objectKey k =>
    cases h with
    | nil => exact rfl
    | cons hc h =>
      cases hc with
      | object ho =>
        exact akin_bind (T.objectKey _ _ k _ _ ho hs) fun a b d e hv hs => akin_pure (.cons (.entry hv.1 hv.2) h) hs
      | _ => exact rfl
  | endObject =>
    cases h with
    | nil => exact rfl
    | cons hc h =>
      cases hc with
      | object ho => exact val h (T.endObject _ _ _ _ ho hs)
      | _ => exact rfl
  | endArray =>
    cases h with
    | nil => exact rfl
    | cons hc h =>
      cases hc with
      | array ho => exact val h (T.endArray _ _ _ _ ho hs)
      | _ => exact rfl
  | objectValue =>
    cases h with
    | nil => exact rfl
    | cons hc h =>
      cases hc with
      | value hv =>
        cases h with
        | nil => exact rfl
        | cons hc h =>
          cases hc with
          | entry ho hk => exact obj h (T.objectValue _ _ _ _ _ _ _ _ ho hk hv hs)
          | _ => exact rfl
      | _ => exact rfl
  | arrayValue =>
    cases h with
    | nil => exact rfl
    | cons hc h =>
      cases hc with
      | value hv =>
        cases h with
        | nil => exact rfl
        | cons hc h =>
          cases hc with
          | array ha => exact arr h (T.arrayValue _ _ _ _ _ _ ha hv hs)
          | _ => exact rfl
      | _ => exact rfl

theorem map_akin {α β : Type} {R : α → β → Prop} {off : Nat} {m : M D.σ D.Err α} {n : M E.σ E.Err β} {d : D.σ} {e : E.σ}
    (h : Akin T.state T.error R (m d) (n e)) :
    Akin T.state T.parseError R (M.mapErr (fun x => (⟨off, .errorFromDelegate x⟩ : Error D.Err)) m d)
      (M.mapErr (fun x => (⟨off, .errorFromDelegate x⟩ : Error E.Err)) n e) := by
  unfold M.mapErr
  cases hm : m d <;> cases hn : n e <;> rw [hm, hn] at h <;> first | exact h.elim | skip
  · exact h
  · exact ⟨.inr ⟨_, _, _, rfl, rfl, h.1⟩, h.2⟩
  · exact h

theorem replay_akin : ∀ (l : List (Nat × Event)) {fs fs'}, T.Cells fs fs' → ∀ {d e}, T.state d e →
    Akin T.state T.parseError T.Cells (replay D l fs d) (replay E l fs' e)
  | [], _, _, h, _, _, hs => ⟨h, hs⟩
  | (_, ev) :: l, _, _, h, _, _, hs =>
    akin_bind (R := T.Cells) (map_akin T (call_akin T ev h hs)) fun _ _ _ _ h hs => replay_akin l h hs

end

/-! ## Flags -/

/-- The delegate whose objects and arrays know whether anything is in them. -/
@[reducible] def flagged (D : Delegate) : Delegate where
  σ := D.σ
  Value := D.Value
  Object := D.Object × Bool
  Array := D.Array × Bool
  Key := D.Key
  Err := D.Err
  null := D.null
  boolean b := D.boolean b
  number n := D.number n
  string s := D.string s
  beginObject := do return (← D.beginObject, false)
  objectKey o k := do
    let p ← D.objectKey o.1 k
    return ((p.1, o.2), p.2)
  objectValue o k v := do return (← D.objectValue o.1 k v, true)
  objectIsEmpty _ o := .ok (!o.2)
  endObject o := D.endObject o.1
  beginArray := do return (← D.beginArray, false)
  arrayValue a v := do return (← D.arrayValue a.1 v, true)
  arrayIsEmpty _ a := .ok (!a.2)
  endArray a := D.endArray a.1
  kindOf s v := D.kindOf s v

variable {D : Delegate}

theorem flag_akin {σ ε α : Type} {m : M σ ε α} (b : Bool) (d : σ) :
    Akin Eq Eq (fun (a : α) (p : α × Bool) => p.1 = a) (m d) ((do return (← m, b) : M σ ε (α × Bool)) d) := by
  show Akin _ _ _ (m d) (M.bind m _ d)
  unfold M.bind
  cases m d with
  | panic p => exact rfl
  | _ => exact ⟨rfl, rfl⟩

theorem same_akin {σ ε α : Type} (m : Out σ ε α) : Akin Eq Eq Eq m m := by
  cases m with
  | panic p => exact rfl
  | _ => exact ⟨rfl, rfl⟩

/-- Where nothing is asked of objects and arrays. -/
def flagTie (cfg : ParseConfig) (hc : cfg.allowTrailingCommas = true) (D : Delegate) : Tie cfg D (flagged D) where
  state := Eq
  value := Eq
  object o p := p.1 = o
  array a p := p.1 = a
  key := Eq
  error := Eq
  null := by rintro d _ rfl; exact same_akin _
  boolean := by rintro b d _ rfl; exact same_akin _
  number := by rintro b d _ rfl; exact same_akin _
  string := by rintro b d _ rfl; exact same_akin _
  beginObject := by rintro d _ rfl; exact flag_akin _ _
  objectKey := by
    rintro _ o k d _ rfl rfl
    show Akin _ _ _ _ (M.bind (D.objectKey o.1 k) _ d)
    unfold M.bind
    cases D.objectKey o.1 k d with
    | ok p d => exact ⟨⟨rfl, rfl⟩, rfl⟩
    | err x d => exact ⟨rfl, rfl⟩
    | panic p => exact rfl
  objectValue := by rintro _ o _ k _ v _ d rfl rfl rfl rfl; exact flag_akin _ _
  objectIsEmpty := by rw [hc]; nofun
  endObject := by rintro _ o _ d rfl rfl; exact same_akin _
  beginArray := by rintro d _ rfl; exact flag_akin _ _
  arrayValue := by rintro _ a _ v _ d rfl rfl rfl; exact flag_akin _ _
  arrayIsEmpty := by rw [hc]; nofun
  endArray := by rintro _ a _ d rfl rfl; exact same_akin _
  kindOf := by rintro _ v _ d _ rfl rfl; rfl

/-- what a traversal makes of a container with a flag -/
def withFlag {σ ε α : Type} (b : Bool) : Out σ ε α → Out σ ε (α × Bool)
  | .ok a s => .ok (a, b) s
  | .err e s => .err e s
  | .panic p => .panic p

mutual
theorem flagged_value : ∀ (v : Value) (d : D.σ), foldValue (flagged D) v d = foldValue D v d
  | .null, d => by simp only [foldValue]
  | .boolean b, d => by simp only [foldValue]
  | .number b, d => by simp only [foldValue]
  | .string b, d => by simp only [foldValue]
  | .object es, d => by
    simp only [foldValue]
    show M.bind (M.bind D.beginObject _) _ d = M.bind D.beginObject _ d
    unfold M.bind
    cases D.beginObject d with
    | err x d => rfl
    | panic p => rfl
    | ok o d =>
      show M.bind _ _ d = M.bind _ _ d
      unfold M.bind
      rw [flagged_entries es o false d]
      cases foldEntries D es o d <;> rfl
  | .array vs, d => by
    simp only [foldValue]
    show M.bind (M.bind D.beginArray _) _ d = M.bind D.beginArray _ d
    unfold M.bind
    cases D.beginArray d with
    | err x d => rfl
    | panic p => rfl
    | ok o d =>
      show M.bind _ _ d = M.bind _ _ d
      unfold M.bind
      rw [flagged_elems vs o false d]
      cases foldElems D vs o d <;> rfl
theorem flagged_entries : ∀ (es : List (JsonString × Value)) (o : D.Object) (b : Bool) (d : D.σ),
    foldEntries (flagged D) es (o, b) d = withFlag (b || !es.isEmpty) (foldEntries D es o d)
  | [], o, b, d => by simp [foldEntries, M.pure, withFlag]
  | (k, v) :: es, o, b, d => by
    simp only [foldEntries]
    show M.bind (M.bind (D.objectKey o k) _) _ d = withFlag _ (M.bind (D.objectKey o k) _ d)
    unfold M.bind
    cases D.objectKey o k d with
    | err x d => rfl
    | panic p => rfl
    | ok p d =>
      show M.bind _ _ d = withFlag _ (M.bind _ _ d)
      unfold M.bind
      rw [flagged_value v d]
      cases foldValue D v d with
      | err x d => rfl
      | panic p => rfl
      | ok a d =>
        show M.bind (M.bind (D.objectValue p.1 p.2 a) _) _ d = withFlag _ (M.bind (D.objectValue p.1 p.2 a) _ d)
        unfold M.bind
        cases D.objectValue p.1 p.2 a d with
        | err x d => rfl
        | panic p => rfl
        | ok o d =>
          show foldEntries (flagged D) es (o, true) d = _
          rw [flagged_entries es o true d]
          simp
theorem flagged_elems : ∀ (vs : List Value) (o : D.Array) (b : Bool) (d : D.σ),
    foldElems (flagged D) vs (o, b) d = withFlag (b || !vs.isEmpty) (foldElems D vs o d)
  | [], o, b, d => by simp [foldElems, M.pure, withFlag]
  | v :: vs, o, b, d => by
    simp only [foldElems]
    show M.bind _ _ d = withFlag _ (M.bind _ _ d)
    unfold M.bind
    rw [flagged_value v d]
    cases foldValue D v d with
    | err x d => rfl
    | panic p => rfl
    | ok a d =>
      show M.bind (M.bind (D.arrayValue o a) _) _ d = withFlag _ (M.bind (D.arrayValue o a) _ d)
      unfold M.bind
      cases D.arrayValue o a d with
      | err x d => rfl
      | panic p => rfl
      | ok o d =>
        show foldElems (flagged D) vs (o, true) d = _
        rw [flagged_elems vs o true d]
        simp
end

theorem flagged_truthful (D : Delegate) : Truthful (flagged D) where
  object es d0 o0 d1 o d2 hb h := by
    have hb : M.bind D.beginObject (fun o => M.pure (o, false)) d0 = .ok o0 d1 := hb
    unfold M.bind at hb
    cases hq : D.beginObject d0 with
    | err x d => rw [hq] at hb; cases hb
    | panic p => rw [hq] at hb; cases hb
    | ok o' d =>
      rw [hq] at hb
      cases hb
      rw [flagged_entries] at h
      cases hf : foldEntries D es o' d1 with
      | err x d => rw [hf] at h; cases h
      | panic p => rw [hf] at h; cases h
      | ok o'' d =>
        rw [hf] at h
        cases h
        simp
  array es d0 o0 d1 o d2 hb h := by
    have hb : M.bind D.beginArray (fun o => M.pure (o, false)) d0 = .ok o0 d1 := hb
    unfold M.bind at hb
    cases hq : D.beginArray d0 with
    | err x d => rw [hq] at hb; cases hb
    | panic p => rw [hq] at hb; cases hb
    | ok o' d =>
      rw [hq] at hb
      cases hb
      rw [flagged_elems] at h
      cases hf : foldElems D es o' d1 with
      | err x d => rw [hf] at h; cases h
      | panic p => rw [hf] at h; cases h
      | ok o'' d =>
        rw [hf] at h
        cases h
        simp

theorem flagged_kind (h : KindTruthful D) : KindTruthful (flagged D) := by
  intro v d a d' hf
  rw [flagged_value] at hf
  exact h v d a d' hf

theorem flagged_unfailing (h : Unfailing D) : Unfailing (flagged D) := by
  have ret : ∀ {α β : Type} {m : M D.σ D.Err α} (f : α → β) {d : D.σ}, (∃ a d', m d = .ok a d') →
      ∃ a d', (do return f (← m) : M D.σ D.Err β) d = .ok a d' := by
    rintro α β m f d ⟨a, d', e⟩
    refine ⟨f a, d', ?_⟩
    show M.bind m _ d = _
    unfold M.bind
    rw [e]
    rfl
  exact ⟨h.null, h.boolean, h.number, h.string, fun d => ret (·, false) (h.beginObject d),
    fun o k d => ret (fun p => ((p.1, o.2), p.2)) (h.objectKey o.1 k d), fun o k v d => ret (·, true) (h.objectValue o.1 k v d),
    fun o d => h.endObject o.1 d, fun d => ret (·, false) (h.beginArray d), fun a v d => ret (·, true) (h.arrayValue a.1 v d),
    fun a d => h.endArray a.1 d⟩

/-! ## Lists of callbacks that truthful delegates follow -/

/-- What `C73_script` says of a delegate. -/
def Follows (g : Bool) (src : List UInt8) (cfg : ParseConfig) (D : Delegate) (l : List (Nat × Event)) (verdict : Option (Error Empty)) (d : D.σ) : Prop :=
  match replay D l [] d with
  | .err x d' => ∃ s, parseBytes g src cfg D d = .err x s ∧ s.delegate = d'
  | .panic p => parseBytes g src cfg D d = .panic p
  | .ok fs d' =>
    match verdict with
    | none => ∃ a s, fs = [.value a] ∧ parseBytes g src cfg D d = .ok a s ∧ s.delegate = d'
    | some e => ∃ s, parseBytes g src cfg D d = .err e.intoFallable s ∧ s.delegate = d'

theorem flagTie_error {cfg : ParseConfig} {hc : cfg.allowTrailingCommas = true} {x y : Error D.Err} (h : (flagTie cfg hc D).parseError x y) : x = y := by
  rcases h with ⟨z, rfl, rfl⟩ | ⟨off, a, b, rfl, rfl, h⟩
  · rfl
  · have h : a = b := h
    rw [h]

/-- Where trailing commas are allowed a delegate parses like the one with flags. -/
theorem parse_flagged {g : Bool} {src : List UInt8} (h : Input g src) {cfg : ParseConfig} (hc : cfg.allowTrailingCommas = true) (d : D.σ) :
    onlyDelegate (parseBytes g src cfg (flagged D) d) = onlyDelegate (parseBytes g src cfg D d) := by
  have hp := parse_akin (flagTie cfg hc D) h (cfg := cfg) (d := d) (e := d) rfl
  cases h1 : onlyDelegate (parseBytes g src cfg D d) <;> cases h2 : onlyDelegate (parseBytes g src cfg (flagged D) d) <;> rw [h1, h2] at hp <;>
    first | exact hp.elim | skip
  · obtain ⟨h3, h4⟩ := hp
    have h3 : _ = _ := h3
    have h4 : _ = _ := h4
    rw [h3, h4]
  · obtain ⟨h3, h4⟩ := hp
    have h4 : _ = _ := h4
    rw [flagTie_error h3, h4]
  · have hp : _ = _ := hp
    rw [hp]

theorem onlyDelegate_ok {σ ε α : Type} {o : Out (PState σ) ε α} {a : α} {d : σ} : onlyDelegate o = .ok a d ↔ ∃ s, o = .ok a s ∧ s.delegate = d := by
  cases o with
  | ok b s => simp only [onlyDelegate, Out.ok.injEq]; grind
  | _ => simp [onlyDelegate]

theorem onlyDelegate_err {σ ε α : Type} {o : Out (PState σ) ε α} {e : ε} {d : σ} : onlyDelegate o = .err e d ↔ ∃ s, o = .err e s ∧ s.delegate = d := by
  cases o with
  | err b s => simp only [onlyDelegate, Out.err.injEq]; grind
  | _ => simp [onlyDelegate]

theorem onlyDelegate_panic {σ ε α : Type} {o : Out (PState σ) ε α} {p : Panic} : onlyDelegate o = .panic p ↔ o = .panic p := by
  cases o <;> simp [onlyDelegate]

theorem heard_flagged {g : Bool} {src : List UInt8} (h : Input g src) {cfg : ParseConfig} (hc : cfg.allowTrailingCommas = true) (d : D.σ) (l0 : List Event) :
    heard (parseBytes g src cfg (logged (flagged D)) (d, l0)) = heard (parseBytes g src cfg (logged D) (d, l0))
    ∧ (delegateFailed (parseBytes g src cfg (logged (flagged D)) (d, l0)) ↔ delegateFailed (parseBytes g src cfg (logged D) (d, l0))) := by
  have := heard_akin (flagTie cfg hc D) h (d := d) (e := d) rfl l0
  exact ⟨this.1.symm, this.2.symm⟩

/-- If truthful delegates follow a list, any delegate does where trailing commas are allowed. -/
theorem follows_flag {g : Bool} {src : List UInt8} (h : Input g src) {cfg : ParseConfig} (hc : cfg.allowTrailingCommas = true) {l : List (Nat × Event)}
    {verdict : Option (Error Empty)} {d : D.σ} (hf : Follows g src cfg (flagged D) l verdict d) : Follows g src cfg D l verdict d := by
  unfold Follows at hf ⊢
  have hp := parse_akin (flagTie cfg hc D) h (cfg := cfg) (d := d) (e := d) rfl
  have hr := replay_akin (flagTie cfg hc D) l .nil (d := d) (e := d) rfl
  cases h1 : replay D l [] d <;> cases h2 : replay (flagged D) l [] d <;> rw [h1, h2] at hr <;> first | exact hr.elim | skip
  · rename_i fs d1 fs' d2
    obtain ⟨hcs, hs⟩ := hr
    have hs : d1 = d2 := hs
    subst hs
    rw [h2] at hf
    cases verdict with
    | none =>
      simp only [] at hf ⊢
      obtain ⟨a, s, rfl, hq, hd⟩ := hf
      rw [hq] at hp
      cases hcs with
      | cons hc hn =>
        cases hn
        cases hc with
        | value hv =>
          cases hq' : parseBytes g src cfg D d <;> rw [hq'] at hp <;> first | exact hp.elim | skip
          rename_i v a' s'
          obtain ⟨h3, h4⟩ := hp
          have h3 : a' = a := h3
          have h4 : s'.delegate = s.delegate := h4
          have hv : v = a := hv
          exact ⟨a', s', by rw [hv, h3], rfl, h4.trans hd⟩
    | some e =>
      simp only [] at hf ⊢
      obtain ⟨s, hq, hd⟩ := hf
      rw [hq] at hp
      cases hq' : parseBytes g src cfg D d <;> rw [hq'] at hp <;> first | exact hp.elim | skip
      rename_i x s'
      obtain ⟨h3, h4⟩ := hp
      have h3 := flagTie_error h3
      have h4 : s'.delegate = s.delegate := h4
      exact ⟨s', by rw [h3], h4.trans hd⟩
  · rename_i x d1 y d2
    obtain ⟨hcs, hs⟩ := hr
    have hcs := flagTie_error hcs
    have hs : d1 = d2 := hs
    subst hs
    subst hcs
    rw [h2] at hf
    simp only [] at hf ⊢
    obtain ⟨s, hq, hd⟩ := hf
    rw [hq] at hp
    cases hq' : parseBytes g src cfg D d <;> rw [hq'] at hp <;> first | exact hp.elim | skip
    rename_i x s'
    obtain ⟨h3, h4⟩ := hp
    have h3 := flagTie_error h3
    have h4 : s'.delegate = s.delegate := h4
    exact ⟨s', by rw [h3], h4.trans hd⟩
  · rename_i p q
    have hr : p = q := hr
    subst hr
    rw [h2] at hf
    simp only [] at hf ⊢
    rw [hf] at hp
    cases hq' : parseBytes g src cfg D d <;> rw [hq'] at hp <;> first | exact hp.elim | skip
    have hp : _ = p := hp
    rw [hp]

theorem follows_lenient {g : Bool} {src : List UInt8} (h : Input g src) {cfg : ParseConfig} {l : List (Nat × Event)} {verdict : Option (Error Empty)}
    (hf : ∀ D, Truthful D → (cfg.allowAllTypesAtRoot = true ∨ KindTruthful D) → ∀ d, Follows g src cfg D l verdict d) (D : Delegate)
    (hD : cfg.allowTrailingCommas = true ∨ Truthful D) (hk : cfg.allowAllTypesAtRoot = true ∨ KindTruthful D) (d : D.σ) :
    Follows g src cfg D l verdict d := by
  rcases hD with hc | hD
  · exact follows_flag h hc (hf _ (flagged_truthful D) (hk.imp id flagged_kind) d)
  · exact hf D hD hk d

end
end JustJson
