import Verif.Spec.Pair
import Verif.Props.Replay
/-! # C86: one parse can feed two delegates -/

namespace JustJson
open Spec

set_option linter.unusedSectionVars false

section
variable [Arch] {D E : Delegate}

/-! ## The traversal of the pair is that of each -/

theorem oneThenOther_ok {α β : Type} {m : M D.σ D.Err α} {n : M E.σ E.Err β} {s : D.σ × E.σ} {p : α × β} {s' : D.σ × E.σ}
    (h : oneThenOther D E m n s = .ok p s') : m s.1 = .ok p.1 s'.1 := by
  unfold oneThenOther at h
  cases hm : m s.1 with
  | err x d => rw [hm] at h; cases h
  | panic q => rw [hm] at h; cases h
  | ok a d =>
    rw [hm] at h
    simp only [] at h
    cases hn : n s.2 with
    | err x d => rw [hn] at h; cases h
    | panic q => rw [hn] at h; cases h
    | ok b e =>
      rw [hn] at h
      simp only [Out.ok.injEq] at h
      rw [← h.1, ← h.2]

theorem M.bind_inv {σ ε α β : Type} {m : M σ ε α} {f : α → M σ ε β} {s : σ} {b : β} {s' : σ}
    (h : (m >>= f) s = .ok b s') : ∃ a t, m s = .ok a t ∧ f a t = .ok b s' := by
  change M.bind m f s = _ at h
  unfold M.bind at h
  cases hm : m s with
  | err x d => rw [hm] at h; cases h
  | panic q => rw [hm] at h; cases h
  | ok a t => rw [hm] at h; exact ⟨a, t, rfl, h⟩

theorem bind_at {σ ε α β : Type} {m : M σ ε α} {f : α → M σ ε β} {s t : σ} {a : α} (h : m s = .ok a t) :
    (m >>= f) s = f a t := by
  change M.bind m f s = _
  unfold M.bind
  rw [h]

theorem pair_key {o : D.Object × E.Object} {k : JsonString} {s s' : D.σ × E.σ} {p : (D.Object × E.Object) × (D.Key × E.Key)}
    (h : (bothDelegates D E).objectKey o k s = .ok p s') : D.objectKey o.1 k s.1 = .ok (p.1.1, p.2.1) s'.1 := by
  obtain ⟨a, t, h1, h2⟩ := M.bind_inv h
  have h3 := oneThenOther_ok h1
  injection h2 with h4 h5
  rw [h3, ← h4, ← h5]

mutual
theorem pair_value : ∀ (v : Value) {s s' : D.σ × E.σ} {a : D.Value × E.Value},
    foldValue (bothDelegates D E) v s = .ok a s' → foldValue D v s.1 = .ok a.1 s'.1
  | .null, _, _, _, h => oneThenOther_ok h
  | .boolean _, _, _, _, h => oneThenOther_ok h
  | .number _, _, _, _, h => oneThenOther_ok h
  | .string _, _, _, _, h => oneThenOther_ok h
  | .object es, s, s', a, h => by
    unfold foldValue at h ⊢
    obtain ⟨o, t, h1, h⟩ := M.bind_inv h
    obtain ⟨o', t', h2, h⟩ := M.bind_inv h
    rw [bind_at (oneThenOther_ok h1), bind_at (pair_entries es h2)]
    exact oneThenOther_ok h
  | .array vs, s, s', a, h => by
    unfold foldValue at h ⊢
    obtain ⟨o, t, h1, h⟩ := M.bind_inv h
    obtain ⟨o', t', h2, h⟩ := M.bind_inv h
    rw [bind_at (oneThenOther_ok h1), bind_at (pair_elems vs h2)]
    exact oneThenOther_ok h
theorem pair_entries : ∀ (es : List (JsonString × Value)) {s s' : D.σ × E.σ} {o o' : D.Object × E.Object},
    foldEntries (bothDelegates D E) es o s = .ok o' s' → foldEntries D es o.1 s.1 = .ok o'.1 s'.1
  | [], _, _, _, _, h => by
    unfold foldEntries at h ⊢
    injection h with h1 h2
    rw [← h1, ← h2]
    rfl
  | (k, v) :: es, s, s', o, o', h => by
    unfold foldEntries at h ⊢
    obtain ⟨p, t, h1, h⟩ := M.bind_inv h
    obtain ⟨w, t', h2, h⟩ := M.bind_inv h
    obtain ⟨o2, t2, h3, h⟩ := M.bind_inv h
    rw [bind_at (pair_key h1)]
    simp only []
    rw [bind_at (pair_value v h2), bind_at (oneThenOther_ok h3)]
    exact pair_entries es h
theorem pair_elems : ∀ (vs : List Value) {s s' : D.σ × E.σ} {o o' : D.Array × E.Array},
    foldElems (bothDelegates D E) vs o s = .ok o' s' → foldElems D vs o.1 s.1 = .ok o'.1 s'.1
  | [], _, _, _, _, h => by
    unfold foldElems at h ⊢
    injection h with h1 h2
    rw [← h1, ← h2]
    rfl
  | v :: vs, s, s', o, o', h => by
    unfold foldElems at h ⊢
    obtain ⟨w, t', h2, h⟩ := M.bind_inv h
    obtain ⟨o2, t2, h3, h⟩ := M.bind_inv h
    rw [bind_at (pair_value v h2), bind_at (oneThenOther_ok h3)]
    exact pair_elems vs h
end

theorem pair_truthful (h : Truthful D) : Truthful (bothDelegates D E) where
  object es _ _ _ _ _ h1 h2 := h.object es _ _ _ _ _ (oneThenOther_ok h1) (pair_entries es h2)
  array vs _ _ _ _ _ h1 h2 := h.array vs _ _ _ _ _ (oneThenOther_ok h1) (pair_elems vs h2)

theorem pair_kind (h : KindTruthful D) : KindTruthful (bothDelegates D E) :=
  fun v _ _ _ h1 => h v _ _ _ (pair_value v h1)

/-! ## Replaying -/

/-- what the first delegate has on the stack -/
def Frame.left : Frame (bothDelegates D E) → Frame D
  | .value v => .value v.1
  | .object o => .object o.1
  | .entry o k => .entry o.1 k.1
  | .array a => .array a.1

/-- what the second has -/
def Frame.right : Frame (bothDelegates D E) → Frame E
  | .value v => .value v.2
  | .object o => .object o.2
  | .entry o k => .entry o.2 k.2
  | .array a => .array a.2

/-- a step of both is a step of each, up to the first failure -/
def Splits {α β γ : Type} (l : γ → α) (r : γ → β) (out : Out (D.σ × E.σ) (D.Err ⊕ E.Err) γ) (o1 : Out D.σ D.Err α)
    (o2 : Out E.σ E.Err β) : Prop :=
  match out with
  | .ok c s => o1 = .ok (l c) s.1 ∧ o2 = .ok (r c) s.2
  | .err (.inl x) s => o1 = .err x s.1
  | .err (.inr y) s => o2 = .err y s.2 ∧ ∃ a, o1 = .ok a s.1
  | .panic p => o1 = .panic p ∨ o2 = .panic p

theorem oneThenOther_splits {α β : Type} (m : M D.σ D.Err α) (n : M E.σ E.Err β) (s : D.σ × E.σ) :
    Splits Prod.fst Prod.snd (oneThenOther D E m n s) (m s.1) (n s.2) := by
  unfold Splits oneThenOther
  cases hm : m s.1 with
  | err x d => rfl
  | panic q => exact .inl rfl
  | ok a d =>
    cases hn : n s.2 with
    | err x d => exact ⟨rfl, a, rfl⟩
    | panic q => exact .inr rfl
    | ok b e => exact ⟨rfl, rfl⟩

theorem Splits.map {α β γ α' β' γ' : Type} {l : γ → α} {r : γ → β} {m : M (D.σ × E.σ) (D.Err ⊕ E.Err) γ} {m1 : M D.σ D.Err α}
    {m2 : M E.σ E.Err β} {s : D.σ × E.σ} (h : Splits l r (m s) (m1 s.1) (m2 s.2)) {f : γ → γ'} {f1 : α → α'} {f2 : β → β'}
    {l' : γ' → α'} {r' : γ' → β'} (hl : ∀ c, l' (f c) = f1 (l c)) (hr : ∀ c, r' (f c) = f2 (r c)) :
    Splits l' r' ((do let c ← m; return f c : M _ _ γ') s) ((do let c ← m1; return f1 c : M _ _ α') s.1)
      ((do let c ← m2; return f2 c : M _ _ β') s.2) := by
  change Splits l' r' (M.bind m (fun c => M.pure (f c)) s) (M.bind m1 (fun c => M.pure (f1 c)) s.1)
    (M.bind m2 (fun c => M.pure (f2 c)) s.2)
  unfold Splits at h ⊢
  unfold M.bind
  cases hm : m s with
  | ok c t =>
    rw [hm] at h
    simp only [h.1, h.2, M.pure, hl, hr]
    exact ⟨trivial, trivial⟩
  | panic p =>
    rw [hm] at h
    simp only [] at h ⊢
    cases h with
    | inl h => simp only [h]; exact .inl trivial
    | inr h => simp only [h]; exact .inr trivial
  | err x t =>
    rw [hm] at h
    cases x with
    | inl x => simp only [] at h ⊢; simp only [h]
    | inr y =>
      simp only [] at h ⊢
      obtain ⟨h1, a, h2⟩ := h
      simp only [h1, h2]
      exact ⟨trivial, _, rfl⟩

theorem key_splits (o : D.Object × E.Object) (k : JsonString) (s : D.σ × E.σ) :
    Splits (fun p : (D.Object × E.Object) × (D.Key × E.Key) => (p.1.1, p.2.1)) (fun p => (p.1.2, p.2.2))
      ((bothDelegates D E).objectKey o k s) (D.objectKey o.1 k s.1) (E.objectKey o.2 k s.2) := by
  have h := Splits.map (oneThenOther_splits (D.objectKey o.1 k) (E.objectKey o.2 k) s)
    (f := fun p => ((p.1.1, p.2.1), (p.1.2, p.2.2))) (f1 := id) (f2 := id)
    (l' := fun p : (D.Object × E.Object) × (D.Key × E.Key) => (p.1.1, p.2.1)) (r' := fun p => (p.1.2, p.2.2))
    (fun _ => rfl) (fun _ => rfl)
  have e : ∀ {σ ε α : Type} (m : M σ ε α) (s : σ), (do let c ← m; return id c : M σ ε α) s = m s := by
    intro σ ε α m s
    change M.bind m (fun c => M.pure (id c)) s = _
    unfold M.bind
    cases m s <;> rfl
  rw [e, e] at h
  exact h

theorem call_splits (ev : Event) (fs : List (Frame (bothDelegates D E))) (s : D.σ × E.σ) :
    Splits (List.map Frame.left) (List.map Frame.right) (ev.call (bothDelegates D E) fs s) (ev.call D (fs.map Frame.left) s.1)
      (ev.call E (fs.map Frame.right) s.2) := by
  cases ev with
  | null => exact Splits.map (oneThenOther_splits D.null E.null s) (fun _ => rfl) (fun _ => rfl)
  | boolean b => exact Splits.map (oneThenOther_splits (D.boolean b) (E.boolean b) s) (fun _ => rfl) (fun _ => rfl)
  | number b => exact Splits.map (oneThenOther_splits (D.number b) (E.number b) s) (fun _ => rfl) (fun _ => rfl)
  | string b => exact Splits.map (oneThenOther_splits (D.string b) (E.string b) s) (fun _ => rfl) (fun _ => rfl)
  | beginObject => exact Splits.map (oneThenOther_splits D.beginObject E.beginObject s) (fun _ => rfl) (fun _ => rfl)
  | beginArray => exact Splits.map (oneThenOther_splits D.beginArray E.beginArray s) (fun _ => rfl) (fun _ => rfl)
  | objectKey k =>
    match fs with
    | [] => exact .inl rfl
    | .value _ :: _ => exact .inl rfl
    | .entry _ _ :: _ => exact .inl rfl
    | .array _ :: _ => exact .inl rfl
    | .object o :: fs => exact Splits.map (key_splits o k s) (fun _ => rfl) (fun _ => rfl)
  | objectValue =>
    match fs with
    | [] => exact .inl rfl
    | .object _ :: _ => exact .inl rfl
    | .entry _ _ :: _ => exact .inl rfl
    | .array _ :: _ => exact .inl rfl
    | [.value _] => exact .inl rfl
    | .value _ :: .value _ :: _ => exact .inl rfl
    | .value _ :: .object _ :: _ => exact .inl rfl
    | .value _ :: .array _ :: _ => exact .inl rfl
    | .value v :: .entry o k :: fs =>
      exact Splits.map (oneThenOther_splits (D.objectValue o.1 k.1 v.1) (E.objectValue o.2 k.2 v.2) s) (fun _ => rfl) (fun _ => rfl)
  | endObject =>
    match fs with
    | [] => exact .inl rfl
    | .value _ :: _ => exact .inl rfl
    | .entry _ _ :: _ => exact .inl rfl
    | .array _ :: _ => exact .inl rfl
    | .object o :: fs => exact Splits.map (oneThenOther_splits (D.endObject o.1) (E.endObject o.2) s) (fun _ => rfl) (fun _ => rfl)
  | arrayValue =>
    match fs with
    | [] => exact .inl rfl
    | .object _ :: _ => exact .inl rfl
    | .entry _ _ :: _ => exact .inl rfl
    | .array _ :: _ => exact .inl rfl
    | [.value _] => exact .inl rfl
    | .value _ :: .value _ :: _ => exact .inl rfl
    | .value _ :: .object _ :: _ => exact .inl rfl
    | .value _ :: .entry _ _ :: _ => exact .inl rfl
    | .value v :: .array o :: fs =>
      exact Splits.map (oneThenOther_splits (D.arrayValue o.1 v.1) (E.arrayValue o.2 v.2) s) (fun _ => rfl) (fun _ => rfl)
  | endArray =>
    match fs with
    | [] => exact .inl rfl
    | .value _ :: _ => exact .inl rfl
    | .entry _ _ :: _ => exact .inl rfl
    | .object _ :: _ => exact .inl rfl
    | .array o :: fs => exact Splits.map (oneThenOther_splits (D.endArray o.1) (E.endArray o.2) s) (fun _ => rfl) (fun _ => rfl)

/-- making the callbacks on both is making them on each, up to the first failure -/
def ReplaySplits (out : Out (D.σ × E.σ) (Error (D.Err ⊕ E.Err)) (List (Frame (bothDelegates D E))))
    (o1 : Out D.σ (Error D.Err) (List (Frame D))) (o2 : Out E.σ (Error E.Err) (List (Frame E))) : Prop :=
  match out with
  | .ok c s => o1 = .ok (c.map Frame.left) s.1 ∧ o2 = .ok (c.map Frame.right) s.2
  | .err ⟨off, .errorFromDelegate (.inl x)⟩ s => o1 = .err ⟨off, .errorFromDelegate x⟩ s.1
  | .err ⟨off, .errorFromDelegate (.inr y)⟩ s => o2 = .err ⟨off, .errorFromDelegate y⟩ s.2
  | .err _ _ => False
  | .panic p => o1 = .panic p ∨ o2 = .panic p

theorem replay_splits : ∀ (l : List (Nat × Event)) (fs : List (Frame (bothDelegates D E))) (s : D.σ × E.σ),
    ReplaySplits (replay (bothDelegates D E) l fs s) (replay D l (fs.map Frame.left) s.1) (replay E l (fs.map Frame.right) s.2)
  | [], fs, s => ⟨rfl, rfl⟩
  | (off, ev) :: l, fs, s => by
    have h := call_splits ev fs s
    have step : ∀ (D' : Delegate) (gs : List (Frame D')) (d : D'.σ), replay D' ((off, ev) :: l) gs d =
        match ev.call D' gs d with
        | .ok gs' d' => replay D' l gs' d'
        | .err x d' => .err ⟨off, .errorFromDelegate x⟩ d'
        | .panic p => .panic p := by
      intro D' gs d
      change M.bind (M.mapErr _ (ev.call D' gs)) _ d = _
      unfold M.bind M.mapErr
      cases ev.call D' gs d <;> rfl
    rw [step, step, step]
    unfold Splits at h
    cases hc : ev.call (bothDelegates D E) fs s with
    | ok fs' s' =>
      rw [hc] at h
      simp only [h.1, h.2]
      exact replay_splits l fs' s'
    | panic p =>
      rw [hc] at h
      simp only [] at h ⊢
      cases h with
      | inl h => simp only [h]; exact .inl rfl
      | inr h => simp only [h]; exact .inr rfl
    | err x s' =>
      rw [hc] at h
      cases x with
      | inl x => simp only [] at h ⊢; simp only [h]; rfl
      | inr x => simp only [] at h ⊢; simp only [h.1]; rfl

/-- **C86.** A parse that passes every callback on to two delegates does to each what a parse of its own would do: if it returns
a pair, each of the two parses returns its half, with the delegate in the same state; if a callback of one delegate fails, the
parse with that delegate fails so, at the same offset; if the parser refuses the text, it refuses it in both parses, with the
same error, leaving both in these states. -/
theorem C86_one_parse_for_two (g : Bool) (src : List UInt8) (h : Input g src) (cfg : ParseConfig) (D E : Delegate)
    (hD : cfg.allowTrailingCommas = true ∨ (Truthful D ∧ Truthful E))
    (hk : cfg.allowAllTypesAtRoot = true ∨ (KindTruthful D ∧ KindTruthful E)) (d : D.σ) (e : E.σ) :
    match parseBytes g src cfg (bothDelegates D E) (d, e) with
    | .ok (a, b) s =>
      (∃ s1, parseBytes g src cfg D d = .ok a s1 ∧ s1.delegate = s.delegate.1)
        ∧ ∃ s2, parseBytes g src cfg E e = .ok b s2 ∧ s2.delegate = s.delegate.2
    | .err ⟨off, .errorFromDelegate (.inl x)⟩ s =>
      ∃ s1, parseBytes g src cfg D d = .err ⟨off, .errorFromDelegate x⟩ s1 ∧ s1.delegate = s.delegate.1
    | .err ⟨off, .errorFromDelegate (.inr y)⟩ s =>
      ∃ s2, parseBytes g src cfg E e = .err ⟨off, .errorFromDelegate y⟩ s2 ∧ s2.delegate = s.delegate.2
    | .err x s => ∃ x0 : Error Empty, x = sameError x0
      ∧ (∃ s1, parseBytes g src cfg D d = .err (sameError x0) s1 ∧ s1.delegate = s.delegate.1)
      ∧ ∃ s2, parseBytes g src cfg E e = .err (sameError x0) s2 ∧ s2.delegate = s.delegate.2
    | .panic p => parseBytes g src cfg D d = .panic p ∨ parseBytes g src cfg E e = .panic p := by
  obtain ⟨l, verdict, _, h2⟩ := C73_script g src h cfg
  have hB := h2 (bothDelegates D E) (hD.imp id fun h => pair_truthful h.1) (hk.imp id fun h => pair_kind h.1) (d, e)
  have h1 := h2 D (hD.imp id And.left) (hk.imp id And.left) d
  have h2 := h2 E (hD.imp id And.right) (hk.imp id And.right) e
  have hs := replay_splits (D := D) (E := E) l [] (d, e)
  simp only [List.map_nil] at hs
  unfold ReplaySplits at hs
  cases hr : replay (bothDelegates D E) l [] (d, e) with
  | panic p =>
    rw [hr] at hs hB
    simp only [] at hs hB
    rw [hB]
    cases hs with
    | inl hs => rw [hs] at h1; exact .inl h1
    | inr hs => rw [hs] at h2; exact .inr h2
  | err x s =>
    rw [hr] at hs hB
    obtain ⟨s', hB, hst⟩ := hB
    rw [hB]
    obtain ⟨off, k⟩ := x
    cases k with
    | errorFromDelegate z =>
      cases z with
      | inl x =>
        simp only [] at hs ⊢
        rw [hs] at h1
        rw [hst]
        exact h1
      | inr x =>
        simp only [] at hs ⊢
        rw [hs] at h2
        rw [hst]
        exact h2
    | _ => exact hs.elim
  | ok fs s =>
    rw [hr] at hs hB
    simp only [] at hs hB
    rw [hs.1] at h1
    rw [hs.2] at h2
    cases verdict with
    | none =>
      obtain ⟨a, s', hf, hB, hst⟩ := hB
      obtain ⟨a1, s1, hf1, h1, hst1⟩ := h1
      obtain ⟨a2, s2, hf2, h2, hst2⟩ := h2
      rw [hB]
      subst hf
      simp only [List.map_cons, List.map_nil, Frame.left, Frame.right, List.cons.injEq, Frame.value.injEq, and_true] at hf1 hf2
      subst hf1 hf2
      simp only [hst]
      exact ⟨⟨s1, h1, hst1⟩, s2, h2, hst2⟩
    | some x0 =>
      obtain ⟨s', hB, hst⟩ := hB
      rw [hB]
      obtain ⟨s1, h1, hst1⟩ := h1
      obtain ⟨s2, h2, hst2⟩ := h2
      have key : ∃ y0 : Error Empty, (sameError x0 : Error (D.Err ⊕ E.Err)) = sameError y0
          ∧ (∃ s1, parseBytes g src cfg D d = .err (sameError y0) s1 ∧ s1.delegate = s'.delegate.1)
          ∧ ∃ s2, parseBytes g src cfg E e = .err (sameError y0) s2 ∧ s2.delegate = s'.delegate.2 :=
        ⟨x0, rfl, ⟨s1, h1, by rw [hst1, hst]⟩, s2, h2, by rw [hst2, hst]⟩
      obtain ⟨off, k⟩ := x0
      cases k with
      | errorFromDelegate z => exact z.elim
      | _ => exact key

/-- **C86.** If each parse returns a value, one parse returns both, and leaves both delegates as the two would. -/
theorem C86_both_return (g : Bool) (src : List UInt8) (h : Input g src) (cfg : ParseConfig) (D E : Delegate)
    (hD : cfg.allowTrailingCommas = true ∨ (Truthful D ∧ Truthful E))
    (hk : cfg.allowAllTypesAtRoot = true ∨ (KindTruthful D ∧ KindTruthful E)) (d : D.σ) (e : E.σ) (a : D.Value) (b : E.Value)
    (s1 : PState D.σ) (s2 : PState E.σ) (h1 : parseBytes g src cfg D d = .ok a s1) (h2 : parseBytes g src cfg E e = .ok b s2) :
    ∃ s, parseBytes g src cfg (bothDelegates D E) (d, e) = .ok (a, b) s ∧ s.delegate = (s1.delegate, s2.delegate) := by
  have hp := C86_one_parse_for_two g src h cfg D E hD hk d e
  rw [h1, h2] at hp
  cases hr : parseBytes g src cfg (bothDelegates D E) (d, e) with
  | panic p => rw [hr] at hp; simp only [reduceCtorEq, or_self] at hp
  | ok c s =>
    rw [hr] at hp
    obtain ⟨a', b'⟩ := c
    obtain ⟨⟨t1, h3, h4⟩, t2, h5, h6⟩ := hp
    injection h3 with h7 h8
    injection h5 with h9 h10
    subst h7 h8 h9 h10
    exact ⟨s, rfl, by rw [h4, h6]⟩
  | err x s =>
    rw [hr] at hp
    obtain ⟨off, k⟩ := x
    cases k with
    | errorFromDelegate z =>
      cases z with
      | inl x => obtain ⟨t, h3, _⟩ := hp; cases h3
      | inr x => obtain ⟨t, h3, _⟩ := hp; cases h3
    | _ => obtain ⟨_, _, ⟨t, h3, _⟩, _⟩ := hp; cases h3

/-- **C86.** If only one of the two would fail, the one parse fails like that one: at the same offset, with its delegate in the
same state. -/
theorem C86_one_fails (g : Bool) (src : List UInt8) (h : Input g src) (cfg : ParseConfig) (D E : Delegate)
    (hD : cfg.allowTrailingCommas = true ∨ (Truthful D ∧ Truthful E))
    (hk : cfg.allowAllTypesAtRoot = true ∨ (KindTruthful D ∧ KindTruthful E)) (d : D.σ) (e : E.σ) (off : Nat) :
    (∀ x s1 b s2, parseBytes g src cfg D d = .err ⟨off, .errorFromDelegate x⟩ s1 → parseBytes g src cfg E e = .ok b s2 →
      ∃ s, parseBytes g src cfg (bothDelegates D E) (d, e) = .err ⟨off, .errorFromDelegate (.inl x)⟩ s ∧ s.delegate.1 = s1.delegate)
    ∧ ∀ y s2 a s1, parseBytes g src cfg D d = .ok a s1 → parseBytes g src cfg E e = .err ⟨off, .errorFromDelegate y⟩ s2 →
      ∃ s, parseBytes g src cfg (bothDelegates D E) (d, e) = .err ⟨off, .errorFromDelegate (.inr y)⟩ s ∧ s.delegate.2 = s2.delegate := by
  have hp := C86_one_parse_for_two g src h cfg D E hD hk d e
  constructor
  · intro x s1 b s2 h1 h2
    rw [h1, h2] at hp
    cases hr : parseBytes g src cfg (bothDelegates D E) (d, e) with
    | panic p => rw [hr] at hp; simp only [reduceCtorEq, or_self] at hp
    | ok c s => rw [hr] at hp; obtain ⟨⟨t1, h3, _⟩, _⟩ := hp; cases h3
    | err z s =>
      rw [hr] at hp
      obtain ⟨off', k⟩ := z
      cases k with
      | errorFromDelegate z =>
        cases z with
        | inl x' =>
          obtain ⟨t, h3, h4⟩ := hp
          injection h3 with h5 h6
          injection h5 with h7 h8
          injection h8 with h8
          subst h6 h7 h8
          exact ⟨s, rfl, h4.symm⟩
        | inr x => obtain ⟨t, h3, _⟩ := hp; cases h3
      | _ => obtain ⟨_, _, _, t, h3, _⟩ := hp; cases h3
  · intro x s1 b s2 h1 h2
    rw [h1, h2] at hp
    cases hr : parseBytes g src cfg (bothDelegates D E) (d, e) with
    | panic p => rw [hr] at hp; simp only [reduceCtorEq, or_self] at hp
    | ok c s => rw [hr] at hp; obtain ⟨_, t1, h3, _⟩ := hp; cases h3
    | err z s =>
      rw [hr] at hp
      obtain ⟨off', k⟩ := z
      cases k with
      | errorFromDelegate z =>
        cases z with
        | inr x' =>
          obtain ⟨t, h3, h4⟩ := hp
          injection h3 with h5 h6
          injection h5 with h7 h8
          injection h8 with h8
          subst h6 h7 h8
          exact ⟨s, rfl, h4.symm⟩
        | inl x => obtain ⟨t, h3, _⟩ := hp; cases h3
      | _ => obtain ⟨_, _, ⟨t, h3, _⟩, _⟩ := hp; cases h3

end

/-! ## Concrete cases -/

section Examples
attribute [local instance] arch64

/-- the kind, and the callbacks noted -/
def kindAndCalls : Out (PState (Unit × List Event)) (Error (Empty ⊕ Empty)) (JsonKind × JsonKind) → Option (JsonKind × List Event)
  | .ok (k, _) s => some (k, s.delegate.2)
  | _ => none

-- one parse tells the kind and lists the callbacks of a text
example : kindAndCalls (parseBytes false (b8 "[null]") .new (bothDelegates unitDelegate recorder) ((), []))
    = some (.array, [.beginArray, .null, .arrayValue, .endArray]) := by decide +kernel

/-- where the second delegate failed, and why -/
def secondFailed : Out (PState (Unit × Unit)) (Error (Empty ⊕ ErrorKind Empty)) (JsonKind × JsonNumber) → Option (Nat × ErrorKind Empty)
  | .err ⟨off, .errorFromDelegate (.inr y)⟩ _ => some (off, y)
  | _ => none

-- a delegate that takes numbers only fails, beside one that takes everything
example : secondFailed (parseBytes false (b8 "true") .new (bothDelegates unitDelegate numberParser) ((), ()))
    = some (0, .expectedNumber) := by decide +kernel

end Examples

/-! ## Instances: each theorem above applied to a concrete case that meets its hypotheses -/
section Instances
attribute [local instance] arch64

example := fun src (hs : src = exSrc) => C86_one_parse_for_two true src (hs ▸ exSrc_input _) .new valueParser unitDelegate (.inr ⟨value_truthful, unit_truthful⟩)
  (.inl rfl) () ()
example := C86_both_return true exSrc (exSrc_input _) .new valueParser unitDelegate (.inr ⟨value_truthful, unit_truthful⟩)
  (.inl rfl) () ()
example := C86_one_fails true exSrc (exSrc_input _) (ParseConfig.allowingTrailingCommas .new) numberParser unitDelegate (.inl rfl)
  (.inl rfl) () () 0
-- on its own, the number parser fails there too, and the other returns
example : (parseBytes false (b8 "true") .new numberParser ()).outcome = .err ⟨0, .errorFromDelegate .expectedNumber⟩
    ∧ (parseBytes false (b8 "true") .new unitDelegate ()).outcome = .ok .boolean := by decide +kernel

end Instances
end JustJson
