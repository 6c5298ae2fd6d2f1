import Verif.Tcl.Eval

/-!
# C68: texts, truth values and arrays passed between C++ and Tcl

A String, a bool, an Array of Strings or an Array of such arrays that is handed to Tcl and converted back is the same;
and an Array made from a script's text has the elements of the list the text is.
-/

namespace Bdlib.Tcl
open Bdlib Bdlib.Str

variable {C : Library}

theorem appendAll_ok {α : Type} {conv : α → Eff (Option Obj)} {f : α → Obj} : ∀ (xs : List α) (acc : List Obj),
    (∀ x ∈ xs, conv x = .ret (some (f x))) → appendAll conv xs acc = .ret (acc ++ xs.map f)
  | [], acc, _ => by simp [appendAll]
  | x :: xs, acc, h => by
    unfold appendAll
    rw [h x List.mem_cons_self]
    simp only [Eff.ret_bind]
    rw [appendAll_ok xs _ fun y hy => h y (List.mem_cons_of_mem _ hy)]
    simp

theorem convAll_ok {α : Type} {conv : Obj → Eff α} {f : Obj → α} : ∀ (os : List Obj) (acc : List α),
    (∀ o ∈ os, conv o = .ret (f o)) → convAll conv os acc = .ret (acc ++ os.map f)
  | [], acc, _ => by simp [convAll]
  | o :: os, acc, h => by
    unfold convAll
    rw [h o List.mem_cons_self]
    simp only [Eff.ret_bind]
    rw [convAll_ok os _ fun y hy => h y (List.mem_cons_of_mem _ hy)]
    simp

theorem ofString_ok {v : Bytes} (h : v.length < 2 ^ 31 - 1) : ofString v = some (.str v) := if_pos (by simpa using h)

/-- A String comes back as it is, NUL bytes included.  Partial: shorter than 2^31 - 1 bytes. -/
theorem c68_string_partial (C : Library) {v : Bytes} (h : v.length < 2 ^ 31 - 1) :
    ∃ o, ofString v = some o ∧ toString C o = v := ⟨_, ofString_ok h, by simp [toString, Library.text]⟩

/-- A truth value comes back as it is, also through its text. -/
theorem c68_bool (C : Library) (b : Bool) :
    toBool C (ofBool b) = b ∧ toBool C (.str (C.text (ofBool b))) = b := by
  cases b <;> simp [toBool, ofBool, Library.truth, Library.text, C.parse_zero, C.parse_one]

/-- A text that is no truth value is `false`. -/
theorem c68_not_bool {t : Bytes} (h : C.parseBool t = none) : toBool C (.str t) = false := by
  simp [toBool, Library.truth, Library.text, h]

theorem ofArray_ok {a : List Bytes} (h : ∀ v ∈ a, v.length < 2 ^ 31 - 1) : ofArray a = .ret (.list (a.map .str)) := by
  unfold ofArray
  rw [appendAll_ok (f := .str) a [] fun v hv => by rw [ofString_ok (h v hv)]]
  rfl

theorem toArray_list (os : List Obj) : toArray C true (.list os) = .ret (os.map C.text) := by
  unfold toArray
  rw [if_pos rfl]
  show convAll _ os [] = _
  rw [convAll_ok (f := toString C) os [] fun _ _ => rfl]
  rfl

theorem texts_eq (C : Library) : ∀ os, C.texts os = os.map C.text
  | [] => by simp [Library.texts]
  | o :: os => by rw [Library.texts, texts_eq C os]; rfl

/-- An Array of Strings comes back with the same elements in the same order; and so it does through its text, which is
what a script may make of it.  Partial: elements shorter than 2^31 - 1 bytes (`c68_refuted_long`). -/
theorem c68_array_partial (C : Library) {a : List Bytes} (h : ∀ v ∈ a, v.length < 2 ^ 31 - 1) :
    ∃ o, ofArray a = .ret o ∧ toArray C true o = .ret a ∧ toArray C true (.str (C.text o)) = .ret a := by
  refine ⟨_, ofArray_ok h, ?_, ?_⟩
  · rw [toArray_list, List.map_map]
    simp [Function.comp_def, Library.text]
  · unfold toArray
    rw [if_pos rfl]
    simp only [Library.elements, Library.text, texts_eq, List.map_map]
    rw [C.parse_format]
    show convAll _ (List.map Obj.str _) [] = _
    rw [convAll_ok (f := toString C) _ [] fun _ _ => rfl]
    simp [Function.comp_def, toString, Library.text]

/-- The same for an Array of Arrays of Strings. -/
theorem c68_table_partial (C : Library) {a : List (List Bytes)} (h : ∀ r ∈ a, ∀ v ∈ r, v.length < 2 ^ 31 - 1) :
    ∃ o, ofTable a = .ret o ∧ toTable C true o = .ret a ∧ toTable C true (.str (C.text o)) = .ret a := by
  have hrow : ∀ r ∈ a, toArray C true (.list (r.map .str)) = .ret r := by
    intro r _
    rw [toArray_list, List.map_map]
    simp [Function.comp_def, Library.text]
  have hrow' : ∀ r : List Bytes, toArray C true (.str (C.formatList r)) = .ret r := by
    intro r
    unfold toArray
    rw [if_pos rfl]
    simp only [Library.elements, Library.text]
    rw [C.parse_format]
    show convAll _ (List.map Obj.str _) [] = _
    rw [convAll_ok (f := toString C) _ [] fun _ _ => rfl]
    simp [Function.comp_def, toString, Library.text]
  have all : ∀ (rows : List (List Bytes)) (g : List Bytes → Obj) (acc : List (List Bytes)),
      (∀ r ∈ rows, toArray C true (g r) = .ret r) → convAll (toArray C true) (rows.map g) acc = .ret (acc ++ rows) := by
    intro rows g
    induction rows with
    | nil => intro acc _; simp [convAll]
    | cons r rows ih =>
      intro acc hg
      rw [List.map_cons]
      unfold convAll
      rw [hg r List.mem_cons_self]
      simp only [Eff.ret_bind]
      rw [ih _ fun y hy => hg y (List.mem_cons_of_mem _ hy)]
      simp
  refine ⟨.list (a.map fun r => .list (r.map .str)), ?_, ?_, ?_⟩
  · unfold ofTable
    rw [appendAll_ok (f := fun r => .list (r.map .str)) a [] fun r hr => by
      rw [ofArray_ok (h r hr)]; rfl]
    rfl
  · unfold toTable
    rw [if_pos rfl]
    show convAll _ (a.map _) [] = _
    rw [all a _ [] hrow]
    rfl
  · unfold toTable
    rw [if_pos rfl]
    simp only [Library.elements, Library.text, texts_eq, List.map_map]
    rw [C.parse_format]
    show convAll _ (List.map Obj.str _) [] = _
    rw [List.map_map]
    rw [all a (Obj.str ∘ C.text ∘ fun r => Obj.list (r.map Obj.str)) []]
    · rfl
    · intro r _
      simp only [Function.comp_def, Library.text, texts_eq, List.map_map]
      have : List.map (fun x => x) r = r := List.map_id r
      rw [this]
      exact hrow' r

/-- A text from a script: its elements, if it is a list, ... -/
theorem c68_from_text {t : Bytes} {l : List Bytes} (h : C.parseList t = some l) : toArray C true (.str t) = .ret l := by
  unfold toArray
  rw [if_pos rfl]
  simp only [Library.elements, Library.text, h]
  show convAll _ (List.map Obj.str _) [] = _
  rw [convAll_ok (f := toString C) _ [] fun _ _ => rfl]
  simp [Function.comp_def, toString, Library.text]

/-- ... and nothing if not. -/
theorem c68_not_list {t : Bytes} (h : C.parseList t = none) : toArray C true (.str t) = .ret [] := by
  unfold toArray
  rw [if_pos rfl]
  simp [Library.elements, Library.text, h]

/-- What a script reads from a linked Array is a list with the same elements.  Partial: the text of the list has no NUL
byte; elements shorter than 2^31 - 1 bytes. -/
theorem c68_linked_read_partial (C : Library) {a : List Bytes} (h : ∀ v ∈ a, v.length < 2 ^ 31 - 1)
    (hz : 0 ∉ C.formatList a) : ∃ o, traceGetArray C a = .ret o ∧ toArray C true o = .ret a := by
  refine ⟨.str (C.formatList a), ?_, c68_from_text (C.parse_format a)⟩
  unfold traceGetArray
  rw [ofArray_ok h]
  simp only [Eff.ret_bind, Library.text, texts_eq, List.map_map]
  have : List.map (C.text ∘ Obj.str) a = a := by simp [Function.comp_def, Library.text]
  rw [this, cstr_self hz]
  rfl

/-- Refutation: a script that writes to a linked Array, with any value, dereferences a null pointer. -/
theorem c68_refuted_linked_write (C : Library) (o : Obj) : traceSetArray C o = .ub := rfl

/-- Refutation: an Array with an element of 2^31 - 1 bytes or more: a null pointer is put into the list. -/
theorem c68_refuted_long {v : Bytes} (h : 2 ^ 31 - 1 ≤ v.length) : ofString v = none ∧ ofArray [v] = .ub := by
  have : ofString v = none := if_neg (by simp at h ⊢; omega)
  refine ⟨this, ?_⟩
  unfold ofArray appendAll
  simp [this]

/-! ### the assumptions about the library can be met -/

/-- A way to write lists (not Tcl's): each byte after a 1, each element ended by a 2. -/
def writeElem (v : Bytes) : Bytes := v.flatMap (fun b => [1, b]) ++ [2]

def readElems : Bytes → Bytes → Option (List Bytes)
  | acc, 1 :: b :: r => readElems (acc ++ [b]) r
  | acc, 2 :: r => (readElems [] r).map (acc :: ·)
  | [], [] => some []
  | _, _ => none

theorem readElems_write : ∀ (v acc r : Bytes), readElems acc (writeElem v ++ r) = (readElems [] r).map ((acc ++ v) :: ·)
  | [], acc, r => by simp [writeElem, readElems]
  | b :: v, acc, r => by
    have := readElems_write v (acc ++ [b]) r
    simp only [writeElem, List.flatMap_cons, List.append_assoc, List.cons_append, List.nil_append] at this ⊢
    rw [readElems, this]

def plainLibrary : Library where
  formatList l := l.flatMap writeElem
  parseList := readElems []
  parse_format l := by
    induction l with
    | nil => rfl
    | cons v l ih => rw [List.flatMap_cons, readElems_write, ih]; rfl
  parseBool t := if t = [48] then some false else if t = [49] then some true else none
  parse_zero := rfl
  parse_one := rfl

example : ∃ o, ofTable [[[97], []], [], [[0, 98]]] = .ret o ∧ toTable plainLibrary true o = .ret [[[97], []], [], [[0, 98]]] :=
  let ⟨o, h1, h2, _⟩ := c68_table_partial plainLibrary (a := [[[97], []], [], [[0, 98]]]) (by decide)
  ⟨o, h1, h2⟩
example := c68_linked_read_partial plainLibrary (a := [[97, 98], [], [99]]) (by decide) (by decide)
/-- Refutation: with a NUL in an element the script gets something else (here, no list at all). -/
theorem c68_refuted_linked_nul : ∃ o, traceGetArray plainLibrary [[97, 0, 98]] = .ret o ∧
    toArray plainLibrary true o = .ret [] := ⟨_, rfl, rfl⟩
example : plainLibrary.parseList [3] = none ∧ plainLibrary.parseBool [2] = none := ⟨rfl, rfl⟩

end Bdlib.Tcl
