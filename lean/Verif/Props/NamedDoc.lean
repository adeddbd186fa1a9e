import Verif.Props.Named
import Verif.Spec.NamedDoc
import Verif.Props.Ex
/-! # `Debug` of documents and their iterators: C79 -/

namespace JustJson
open Spec

section
variable {plain : Char → Bool} {a : Bool}

theorem okItems_map {α : Type} {f : α → Shown} (h : ∀ x, (f x).Ok plain) : ∀ xs : List α, Shown.OkItems plain (xs.map f)
  | [] => by rw [List.map_nil, Shown.OkItems]; trivial
  | x :: xs => by rw [List.map_cons, Shown.OkItems]; exact ⟨h x, okItems_map h xs⟩

theorem ok_single {n m : Str} {s : Shown} (hn : IsWord n) (hm : IsWord m) (hs : s.Ok plain) : (Shown.struct n [(m, s)]).Ok plain := by
  rw [Shown.Ok, Shown.OkFields, Shown.OkFields]
  exact ⟨hn, by simp, hm, hs, trivial⟩

/-- It is laid out alike at every level: texts on one line are enough for that. -/
def Level (s : Shown) : Prop := s.lines = s.at' true 0 ∧ ∀ l, shift (s.at' true l) = s.at' true (l + 1)

theorem level_ok {s : Shown} (h : s.Ok plain) : Level s := ⟨lines_at h, fun l => shift_at l h⟩

theorem level_text {s : Str} (h : '\n' ∉ s) : Level (.text s) := ⟨rfl, fun l => by rw [Shown.at', Shown.at']; exact shift_self h⟩

theorem level_shift : ∀ {fs : List (Str × Shown)} (l : Nat), (∀ f ∈ fs, IsWord f.1 ∧ Level f.2) →
    shift (Shown.atFields true l fs) = Shown.atFields true (l + 1) fs
  | [], _, _ => rfl
  | [(n, s)], l, h => by
    obtain ⟨h1, h2⟩ := h (n, s) (by simp)
    rw [Shown.atFields, Shown.atFields, shift_append, shift_word h1, shift_cons (by decide), shift_cons (by decide), h2.2]
  | (n, s) :: t :: fs, l, h => by
    obtain ⟨h1, h2⟩ := h (n, s) (by simp)
    rw [atFields_two, atFields_two, shift_append, shift_word h1, shift_cons (by decide), shift_cons (by decide), shift_append,
      shift_append, h2.2, shift_sep, level_shift l fun f hf => h f (List.mem_cons_of_mem _ hf)]

theorem level_fields : ∀ {fs : List (Str × Shown)}, fs ≠ [] → (∀ f ∈ fs, IsWord f.1 ∧ Level f.2) →
    '\n' :: Shown.linesFields fs = nlAt 1 ++ (Shown.atFields true 1 fs ++ [',', '\n'])
  | [], h, _ => absurd rfl h
  | [(n, s)], _, h => by
    obtain ⟨h1, h2⟩ := h (n, s) (by simp)
    rw [Shown.linesFields, Shown.linesFields, Shown.atFields, (padText_comma _).2, h2.1, shift_append, shift_append,
      shift_word h1, h2.2]
    simp [nlAt, List.replicate, shift]
  | (n, s) :: t :: fs, _, h => by
    obtain ⟨h1, h2⟩ := h (n, s) (by simp)
    have ih := level_fields (fs := t :: fs) (by simp) fun f hf => h f (List.mem_cons_of_mem _ hf)
    have e : Shown.linesFields ((n, s) :: t :: fs) = padText true (n ++ [':', ' '] ++ s.lines ++ [',', '\n']) ++ Shown.linesFields (t :: fs) := by
      rw [Shown.linesFields]
    rw [e, (padText_comma _).2, h2.1, shift_append, shift_append, shift_word h1, h2.2, atFields_two]
    have e2 : ('\n' :: ([' ', ' ', ' ', ' '] ++ (n ++ shift [':', ' '] ++ s.at' true (0 + 1) ++ [',', '\n']) ++ Shown.linesFields (t :: fs)) : Str)
        = nlAt 1 ++ (n ++ ':' :: ' ' :: (s.at' true 1 ++ ',' :: ('\n' :: Shown.linesFields (t :: fs)))) := by simp [nlAt, List.replicate, shift]
    rw [e2, ih]
    simp [sepAt]

theorem level_struct {n : Str} {fs : List (Str × Shown)} (hn : IsWord n) (hne : fs ≠ []) (h : ∀ f ∈ fs, IsWord f.1 ∧ Level f.2) :
    Level (.struct n fs) := by
  refine ⟨?_, fun l => ?_⟩
  · rw [Shown.lines, Shown.at']
    have e : n ++ [' ', '{', '\n'] ++ Shown.linesFields fs ++ ['}'] = n ++ ' ' :: '{' :: ('\n' :: Shown.linesFields fs ++ ['}']) := by simp
    rw [e, level_fields hne h]
    simp [finBrace, nlAt, gapBrace]
  · rw [Shown.at', Shown.at', shift_append, shift_word hn, shift_cons (by decide), shift_cons (by decide), shift_append,
      shift_append, shift_gapBrace, level_shift (l + 1) h, shift_finBrace]

section
variable [Arch]

theorem ok_nodes (ns : List Node) : (Shown.list (ns.map (Node.shown plain))).Ok plain := by
  rw [Shown.Ok]
  exact okItems_map ok_node ns

theorem ok_documentIter (ns : List Node) : (DocumentIter.shown plain ns).Ok plain :=
  ok_single (isWord (by decide +kernel)) (isWord (by decide +kernel))
    (ok_single (isWord (by decide +kernel)) (isWord (by decide +kernel)) (ok_one (isWord (by decide +kernel)) (ok_nodes ns)))

theorem render_document {phantom : Str} (hp : '\n' ∉ phantom) (d : Document) :
    (Document.shown plain phantom d).render a = (Document.shown plain phantom d).at' a 0 := by
  cases a with
  | false => exact flat_at 0 _
  | true =>
    refine (level_struct (isWord (by decide +kernel)) (by simp) ?_).1
    simp only [List.mem_cons, List.not_mem_nil, or_false, forall_eq]
    refine ⟨isWord (by decide +kernel), level_struct (isWord (by decide +kernel)) (by simp) ?_⟩
    simp only [List.mem_cons, List.not_mem_nil, or_false, forall_eq_or_imp, forall_eq]
    exact ⟨⟨isWord (by decide +kernel), level_ok (ok_nodes d)⟩, isWord (by decide +kernel), level_text hp⟩

theorem at_nodes (l : Nat) (ns : List Node) : (Shown.list (ns.map (Node.shown plain))).at' a l = nodesText plain a l ns := by
  rw [at_list, nodesText, List.map_map]
  congr 1
  exact List.map_congr_left fun n _ => at_node (l + 1) n

theorem nodes_inj : ∀ {ns ms : List Node}, (∀ n ∈ ns, NodeFits n) → (∀ n ∈ ms, NodeFits n) →
    ns.map (Node.shown plain) = ms.map (Node.shown plain) → ns = ms
  | [], [], _, _, _ => rfl
  | [], _ :: _, _, _, h => by simp at h
  | _ :: _, [], _, _, h => by simp at h
  | n :: ns, m :: ms, hn, hm, h => by
    rw [List.map_cons, List.map_cons] at h
    injection h with h1 h2
    rw [node_inj (hn n (by simp)) (hm m (by simp)) h1,
      nodes_inj (fun x hx => hn x (List.mem_cons_of_mem _ hx)) (fun x hx => hm x (List.mem_cons_of_mem _ hx)) h2]

omit [Arch] in
theorem at_document (phantom : Str) (s : Shown) (l : Nat) :
    (Shown.struct "GenericDocument".toList [("nodes".toList,
      .struct "Nodes".toList [("collection".toList, s), ("_phantom".toList, .text phantom)])]).at' a l
    = "GenericDocument".toList ++ ' ' :: '{' :: (gapBrace a (l + 1) ++ ("nodes".toList ++ ':' :: ' ' ::
      ("Nodes".toList ++ ' ' :: '{' :: (gapBrace a (l + 2) ++ (("collection".toList ++ ':' :: ' ' :: (s.at' a (l + 2) ++
        (sepAt a (l + 2) ++ ("_phantom".toList ++ ':' :: ' ' :: phantom)))) ++ finBrace a (l + 1)))) ++ finBrace a l)) := by
  rw [Shown.at', Shown.atFields, Shown.at', atFields_two, Shown.atFields, Shown.at']

/-- **C79.** What `{:?}` and `{:#?}` print for a document and for an iterator: the nodes, and for the iterator those it has
left. `phantom` is what core prints for `PhantomData`, on one line. -/
theorem C79_document_text (plain : Char → Bool) (a : Bool) (phantom : Str) (hp : '\n' ∉ phantom) (d : Document) (left : List Node) :
    Document.debug plain phantom a d = documentText plain a phantom 0 d
    ∧ DocumentIter.debug plain a left = documentIterText plain a 0 left := by
  constructor
  · rw [Document.debug, render_document hp, Document.shown, documentText]
    refine at_struct 0 _ _ _ rfl ?_
    simp only [List.zip_cons_cons, List.zip_nil_left, List.mem_cons, List.not_mem_nil, or_false, forall_eq, true_and]
    refine at_struct 1 _ _ _ rfl ?_
    simp only [List.zip_cons_cons, List.zip_nil_left, List.mem_cons, List.not_mem_nil, or_false, forall_eq_or_imp, forall_eq,
      true_and, at_nodes]
    rw [Shown.at']
  · rw [DocumentIter.debug, render_at a (ok_documentIter left), DocumentIter.shown, documentIterText]
    refine at_struct 0 _ _ _ rfl ?_
    simp only [List.zip_cons_cons, List.zip_nil_left, List.mem_cons, List.not_mem_nil, or_false, forall_eq, true_and]
    refine at_struct 1 _ _ _ rfl ?_
    simp only [List.zip_cons_cons, List.zip_nil_left, List.mem_cons, List.not_mem_nil, or_false, forall_eq, true_and, at_tuple,
      at_nodes]

/-- **C79.** Two documents print alike if and only if they have the same nodes, whatever core prints for `PhantomData`. -/
theorem C79_documents (plain : Char → Bool) (a : Bool) (phantom : Str) (hp : '\n' ∉ phantom) (d e : Document)
    (hd : ∀ n ∈ d, NodeFits n) (he : ∀ n ∈ e, NodeFits n) :
    Document.debug plain phantom a d = Document.debug plain phantom a e ↔ d = e := by
  refine ⟨fun h => ?_, fun h => by rw [h]⟩
  rw [Document.debug, Document.debug, render_document hp, render_document hp] at h
  unfold Document.shown at h
  rw [at_document, at_document] at h
  simp only [List.append_cancel_left_eq, List.cons.injEq, true_and, List.append_cancel_right_eq] at h
  have h := (at_split (ok_nodes d) (ok_nodes e) (x := []) (y := []) (.inl rfl) (.inl rfl) (by rw [h])).1
  injection h with h
  exact nodes_inj hd he h

/-- **C79.** Two iterators print alike if and only if they have the same nodes left. -/
theorem C79_documentIters (plain : Char → Bool) (a : Bool) (left left' : List Node)
    (hd : ∀ n ∈ left, NodeFits n) (he : ∀ n ∈ left', NodeFits n) :
    DocumentIter.debug plain a left = DocumentIter.debug plain a left' ↔ left = left' := by
  refine ⟨fun h => ?_, fun h => by rw [h]⟩
  have h := render_inj (ok_documentIter left) (ok_documentIter left') h
  unfold DocumentIter.shown at h
  injection h with _ h
  simp only [List.cons.injEq, Prod.mk.injEq, true_and, and_true] at h
  injection h with _ h
  simp only [List.cons.injEq, Prod.mk.injEq, true_and, and_true] at h
  have h := (one_inj h).2
  injection h with h
  exact nodes_inj hd he h

/-- **C79.** `{:?}` of an iterator prints on one line of visible characters; of a document too, if core prints `PhantomData`
so. -/
theorem C79_document_one_line (plain : Char → Bool) (phantom : Str) (hp : ∀ c ∈ phantom, ' ' ≤ c ∧ c ≤ '~') (d : Document)
    (left : List Node) (c : Char) (hc : c ∈ Document.debug plain phantom false d ∨ c ∈ DocumentIter.debug plain false left) :
    (' ' ≤ c ∧ c ≤ '~') ∨ (plain c = true ∧ c ≠ '\n' ∧ c ≠ '\r' ∧ c ≠ '\t' ∧ c ≠ Char.ofNat 0) := by
  have h : Visible plain c := by
    rcases hc with h | h
    · have hl := flat_visible (ok_nodes (plain := plain) d)
      revert c
      show ∀ c ∈ (Document.shown plain phantom d).flat, Visible plain c
      unfold Document.shown
      have e : ∀ s : Shown, (Shown.struct "GenericDocument".toList [("nodes".toList,
          .struct "Nodes".toList [("collection".toList, s), ("_phantom".toList, .text phantom)])]).flat
          = "GenericDocument { nodes: Nodes { collection: ".toList ++ (s.flat ++ (", _phantom: ".toList ++ (phantom ++ " } }".toList))) := by
        intro s
        rw [Shown.flat, Shown.flatFields, Shown.flat, Shown.flatFields, Shown.flatFields, Shown.flat]
        · simp
        · simp
      rw [e]
      exact visible_append (visible_lit (by decide +kernel)) (visible_append hl (visible_append (visible_lit (by decide +kernel))
        (visible_append (fun c hc => .inl (hp c hc)) (visible_lit (by decide +kernel)))))
    · exact flat_visible (ok_documentIter left) c h
  rcases h with h | ⟨h1, h2, h3, h4, h5⟩
  · exact .inl h
  · exact .inr ⟨h1, h5, h4, h3, h2⟩
end
end

/-! ## Instances -/
section Instances
attribute [local instance] arch64

/-- `["k"]` -/
def shownDoc : Document := [.array 1, .string ⟨.json (.borrowed ['k']), .new false 1⟩]

theorem shownDoc_fits : ∀ n ∈ shownDoc, NodeFits n := by
  intro n hn s hs
  subst hs
  unfold shownDoc at hn
  simp only [List.mem_cons, reduceCtorEq, Node.string.injEq, List.not_mem_nil, or_false, false_or] at hn
  subst hn
  unfold FitsUsize
  decide +kernel

/-- What a current core prints. -/
example : Document.debug asciiPlain "PhantomData<&()>".toList false [.array 1, .boolean true]
    = "GenericDocument { nodes: Nodes { collection: [Array { length: 1 }, Boolean(true)], _phantom: PhantomData<&()> } }".toList := by
  decide +kernel
example : Document.debug asciiPlain "PhantomData<&()>".toList true []
    = "GenericDocument {\n    nodes: Nodes {\n        collection: [],\n        _phantom: PhantomData<&()>,\n    },\n}".toList := by
  decide +kernel
example : DocumentIter.debug asciiPlain false [.boolean true]
    = "DocumentIter { nodes: Cloned { it: Iter([Boolean(true)]) } }".toList := by
  decide +kernel

example := C79_document_text asciiPlain true "PhantomData<&()>".toList (by decide +kernel) shownDoc shownDoc.tail
example := C79_documents asciiPlain true "PhantomData<&()>".toList (by decide +kernel) shownDoc [.null] shownDoc_fits
  (by intro n hn s hs; subst hs; simp at hn)
example := C79_documentIters asciiPlain false shownDoc [.null] shownDoc_fits (by intro n hn s hs; subst hs; simp at hn)
example := C79_document_one_line asciiPlain "PhantomData<&()>".toList (by decide +kernel) shownDoc shownDoc 'k' (.inl (by decide +kernel))
end Instances
end JustJson
