import Verif.Props.SchemaUtils
import Verif.Lemmas.OrderingR
import Verif.Props.Ordering

/-
C14-C18: schema objects.
-/

namespace Corda.Props
open Corda Corda.Spec

/-! ### C16: schema lookup -/

private theorem lookup_emplace (m : List (Str × TypeNotation)) (k k' : Str) (v : TypeNotation) :
    (emplace m k v).lookup k' = (m.lookup k').or (if k' = k then some v else none) := by
  unfold emplace
  by_cases hk : k' = k
  · subst hk
    cases h : m.lookup k' with
    | some a => simp [h]
    | none => simp [h, List.lookup_append]
  · have hb : (k' == k) = false := by simpa using hk
    split
    · simp [hk]
    · simp [List.lookup_append, List.lookup_cons, hb, hk]

private theorem or_find (o : Option TypeNotation) (j : TypeNotation) (js : List TypeNotation) (p : TypeNotation → Bool) :
    (o.or (if p j = true then some j else none)).or (js.find? p) = o.or ((j :: js).find? p) := by
  cases o with
  | some a => simp
  | none => by_cases h : p j = true <;> simp [List.find?_cons, h]

private theorem make_flat (ls : List (List TypeNotation)) (s : Schema) :
    ls.foldl (fun s level => level.foldl (fun s j =>
      { s with descriptorToType := emplace s.descriptorToType j.descriptor j,
               typeToDescriptor := emplace s.typeToDescriptor j.name j }) s) s
    = ls.flatten.foldl (fun s j =>
      { s with descriptorToType := emplace s.descriptorToType j.descriptor j,
               typeToDescriptor := emplace s.typeToDescriptor j.name j }) s := by
  induction ls generalizing s with
  | nil => rfl
  | cons l ls ih => simp only [List.foldl_cons, List.flatten_cons, List.foldl_append, ih]

private theorem fold_lookup (js : List TypeNotation) (s : Schema) :
    let r := js.foldl (fun (s : Schema) j =>
      { s with descriptorToType := emplace s.descriptorToType j.descriptor j,
               typeToDescriptor := emplace s.typeToDescriptor j.name j }) s
    (∀ n, r.typeToDescriptor.lookup n = (s.typeToDescriptor.lookup n).or (js.find? (fun t => n == t.name)))
    ∧ (∀ d, r.descriptorToType.lookup d = (s.descriptorToType.lookup d).or (js.find? (fun t => d == t.descriptor)))
    ∧ r.types = s.types := by
  induction js generalizing s with
  | nil => simp
  | cons j js ih =>
    obtain ⟨h1, h2, h3⟩ := ih ⟨s.types, emplace s.descriptorToType j.descriptor j,
      emplace s.typeToDescriptor j.name j⟩
    simp only [List.foldl_cons]
    refine ⟨?_, ?_, h3⟩
    · intro n
      rw [h1 n, lookup_emplace]
      simpa using or_find _ j js (fun t => n == t.name)
    · intro d
      rw [h2 d, lookup_emplace]
      simpa using or_find _ j js (fun t => d == t.descriptor)

theorem schema_make_types (ls : List (List TypeNotation)) : (Schema.make ls).types = ls := by
  unfold Schema.make
  rw [make_flat]
  exact (fold_lookup ls.flatten _).2.2

/-- **C16.** A schema built from levels of types finds, by name and by descriptor, the first type in level order
with that name or descriptor, and throws when there is none. -/
theorem C16_lookup (ls : List (List TypeNotation)) (q : Str) :
    (Schema.make ls).fromType q = (match ls.flatten.find? (fun t => q == t.name) with
      | some t => .ok t | none => .throw "ARSE")
    ∧ (Schema.make ls).fromDescriptor q = (match ls.flatten.find? (fun t => q == t.descriptor) with
      | some t => .ok t | none => .throw "ARSE") := by
  unfold Schema.fromType Schema.fromDescriptor Schema.make
  rw [make_flat]
  obtain ⟨h1, h2, -⟩ := fold_lookup ls.flatten { types := ls, descriptorToType := [], typeToDescriptor := [] }
  rw [h1 q, h2 q]
  simp only [List.lookup_nil, Option.none_or]
  constructor
  · cases ls.flatten.find? (fun t => q == t.name) <;> rfl
  · cases ls.flatten.find? (fun t => q == t.descriptor) <;> rfl

/-- **C16, in words**: a type is found iff the schema holds one of that name, and it has that name. -/
theorem C16_found_iff (ls : List (List TypeNotation)) (q : Str) :
    ((∃ t, (Schema.make ls).fromType q = .ok t) ↔ ∃ t ∈ ls.flatten, t.name = q)
    ∧ (∀ t, (Schema.make ls).fromType q = .ok t → t ∈ ls.flatten ∧ t.name = q)
    ∧ ((∃ t, (Schema.make ls).fromDescriptor q = .ok t) ↔ ∃ t ∈ ls.flatten, t.descriptor = q)
    ∧ (∀ t, (Schema.make ls).fromDescriptor q = .ok t → t ∈ ls.flatten ∧ t.descriptor = q) := by
  obtain ⟨h1, h2⟩ := C16_lookup ls q
  have key : ∀ (g : TypeNotation → Str),
      ((∃ t, (match ls.flatten.find? (fun t => q == g t) with
        | some t => Res.ok t | none => .throw "ARSE") = .ok t) ↔ ∃ t ∈ ls.flatten, g t = q)
      ∧ ∀ t, (match ls.flatten.find? (fun t => q == g t) with
        | some t => Res.ok t | none => .throw "ARSE") = .ok t → t ∈ ls.flatten ∧ g t = q := by
    intro g
    cases hf : ls.flatten.find? (fun t => q == g t) with
    | some t =>
      have hm := List.mem_of_find?_eq_some hf
      have hp : g t = q := by have := List.find?_some hf; simp at this; exact this.symm
      refine ⟨iff_of_true ⟨t, rfl⟩ ⟨t, hm, hp⟩, ?_⟩
      intro t' e; cases e; exact ⟨hm, hp⟩
    | none =>
      refine ⟨iff_of_false (by simp) ?_, by simp⟩
      rintro ⟨t, hm, hp⟩
      have := List.find?_eq_none.mp hf t hm
      simp [hp] at this
  rw [h1, h2]
  exact ⟨(key _).1, (key _).2, (key _).1, (key _).2⟩

/-- Two types of the same name: the first one in level order is found. -/
example :
    let a : TypeNotation := .comp ⟨"A".toList, [], [], "d1".toList, []⟩
    let b : TypeNotation := .comp ⟨"A".toList, [], [], "d2".toList, []⟩
    (Schema.make [[a], [b]]).fromType "A".toList = .ok a
    ∧ (Schema.make [[a], [b]]).fromDescriptor "d2".toList = .ok b
    ∧ ((Schema.make [[a], [b]]).fromType "B".toList).Throws := by decide

/-! ### C17: fields -/

private theorem typeIsPrimitive_iff (t : Str) : typeIsPrimitive t = true ↔ t ∈ primNames := by
  simp only [typeIsPrimitive, primNames, Bool.or_eq_true, beq_iff_eq, List.map_cons, List.map_nil,
    List.mem_cons, List.not_mem_nil, or_false, or_assoc]

private theorem isContainer_spec (s : Str) (h : ¬ ArrayUB s) :
    ∃ b, isContainer s = .ok b ∧ (b = true ↔ ContainerName s) := by
  obtain ⟨b, hb, hi⟩ := C08_is_array_partial s h
  refine ⟨_, by simp only [isContainer, hb]; rfl, ?_⟩
  simp only [Bool.or_eq_true, hi, isList_iff, isMap_iff, ContainerName, or_assoc]

private theorem listType_ok (s : Str) (hs : s.Small) (hne : s ≠ []) : ∃ a, listType s = .ok a := by
  obtain ⟨a, b, h, -⟩ := listType_short s hne hs
  exact ⟨_, h⟩

/-- **C17, what does hold.** For every field description whose type name is none of `""`, `]`, `p]` (and likewise
its first requirement), and whose requirements decompose, `Field::make` yields a field of exactly the specified
class with everything preserved (a primitive field drops its requirements), and throws exactly in the
error case.  `sub` is the concatenation of the nested types of the requirements. -/
theorem C17_field_classification_partial (name type : Str) (requires : List Str) (dflt label : Str) (mand mult : Bool)
    (ht : ¬ ArrayUB type) (hs : type.Small) (hr : ∀ r ∈ requires.head?, ¬ ArrayUB r)
    (sub : List Str) (hsub : allNested requires = .ok sub) :
    (fieldKind type requires = none ∧ (Field.make name type requires dflt label mand mult).Throws)
    ∨ ∃ k, fieldKind type requires = some k ∧ Field.make name type requires dflt label mand mult =
        .ok { kind := k, name := name, type := type, requires := if k = .primitive then [] else requires,
              default := dflt, label := label, mandatory := mand, multiple := mult,
              subTypes := if k = .array ∨ k = .restricted then sub else [] } := by
  unfold Field.make fieldKind
  by_cases hp : type ∈ primNames
  · right
    exact ⟨.primitive, by simp [hp], by simp [(typeIsPrimitive_iff type).mpr hp]⟩
  · have hp' : typeIsPrimitive type = false := by
      rw [← Bool.not_eq_true, typeIsPrimitive_iff]; exact hp
    simp only [hp, hp', if_false, Bool.false_eq_true]
    obtain ⟨b, hb, hi⟩ := C08_is_array_partial type ht
    rw [hb]
    by_cases ha : HasArraySuffix type
    · right
      refine ⟨.array, by simp [ha], ?_⟩
      simp [hi.mpr ha, hsub]
    · have hbf : b = false := by rw [← Bool.not_eq_true, hi]; exact ha
      subst hbf
      simp only [ha, if_false, Res.bind_eq, Res.bind, Bool.false_eq_true]
      by_cases hstar : type = "*".toList
      · simp only [hstar, if_true]
        cases requires with
        | nil => right; exact ⟨.custom, rfl, by simp⟩
        | cons r rs =>
          obtain ⟨c, hc, hci⟩ := isContainer_spec r (hr r (by simp))
          simp only [hc]
          by_cases hcn : ContainerName r
          · right
            refine ⟨.restricted, by simp [hcn], ?_⟩
            simp [hci.mpr hcn, hsub]
          · left
            have hcf : c = false := by rw [← Bool.not_eq_true, hci]; exact hcn
            simp [hcn, hcf, Res.Throws]
      · right
        simp only [hstar, if_false]
        have hne : type ≠ [] := fun e => ht (.inl e)
        obtain ⟨v, hv⟩ := listType_ok type hs hne
        exact ⟨.composite, rfl, by simp [hv]⟩

/-- **C17, what a field says of itself.** A field that was made reports, as text and as a value, the class it is
specified to have; its type is its own type name, except that a restricted field is of the type of its first
requirement and that asking a custom field, which has no requirement, is undefined. -/
theorem C17_field_reports (name type : Str) (requires : List Str) (dflt label : Str) (mand mult : Bool)
    (ht : ¬ ArrayUB type) (hs : type.Small) (hr : ∀ r ∈ requires.head?, ¬ ArrayUB r)
    (sub : List Str) (hsub : allNested requires = .ok sub) (f : Field)
    (hf : Field.make name type requires dflt label mand mult = .ok f) :
    ∃ k, fieldKind type requires = some k ∧ (f.fieldType, f.AMQPType) = fieldReports k
      ∧ (k = .primitive ∨ k = .array ∨ k = .composite → f.resolvedType = .ok type)
      ∧ (k = .restricted → ∃ r rs, requires = r :: rs ∧ f.resolvedType = .ok r)
      ∧ (k = .custom → f.resolvedType.IsUB) := by
  rcases C17_field_classification_partial name type requires dflt label mand mult ht hs hr sub hsub with
    ⟨-, e⟩ | ⟨k, hk, e⟩
  · rw [hf] at e; exact absurd e (by simp [Res.Throws])
  · rw [hf] at e
    cases e
    refine ⟨k, hk, ?_, ?_, ?_, ?_⟩
    · cases k <;> rfl
    · rintro (h | h | h) <;> subst h <;> rfl
    · intro h
      subst h
      cases requires with
      | nil => exfalso; revert hk; unfold fieldKind; split <;> (try split) <;> (try split) <;> simp
      | cons r rs => exact ⟨r, rs, rfl, rfl⟩
    · intro h
      subst h
      cases requires with
      | nil => trivial
      | cons r rs =>
        exfalso; revert hk; unfold fieldKind
        simp only
        split <;> (try split) <;> (try split) <;> (try split) <;> simp_all

/-- A field of each class, and what it reports. -/
example :
    (do let f ← Field.make "f".toList "*".toList [] [] [] true false; pure (f.fieldType, f.AMQPType))
      = .ok ("custom".toList, .custom_t)
    ∧ (do let f ← Field.make "f".toList "net.Foo[]".toList [] [] [] true false; pure (f.fieldType, f.AMQPType))
      = .ok ("array".toList, .restricted_t)
    ∧ (do let f ← Field.make "f".toList "net.Foo".toList [] [] [] true false; pure (f.fieldType, f.AMQPType))
      = .ok ("composite".toList, .composite_t) := by decide +kernel

private theorem allNested_ok (l : List (Nat × Ty))
    (h : ∀ p ∈ l, p.2.Ok ∧ Str.Small (p.2.render (',' :: List.replicate p.1 ' '))) :
    allNested (l.map (fun p => p.2.render (',' :: List.replicate p.1 ' ')))
      = .ok (l.flatMap (fun p => p.2.render (',' :: List.replicate p.1 ' ')
          :: p.2.inner (',' :: List.replicate p.1 ' '))) := by
  induction l with
  | nil => rfl
  | cons p l ih =>
    have h1 := C07_nested_preorder p.1 p.2 (h p (by simp)).1 (h p (by simp)).2
    simp only [List.map_cons, allNested, h1, ih (fun q hq => h q (by simp [hq])), Res.bind_eq, Res.bind,
      Res.pure_eq, List.flatMap_cons]

/-- **C17, requirements that are well-formed type names** always decompose: `sub` in the theorem above exists and
lists every requirement with all types nested in it. -/
theorem C17_requirements_decompose (l : List (Nat × Ty))
    (h : ∀ p ∈ l, p.2.Ok ∧ Str.Small (p.2.render (',' :: List.replicate p.1 ' '))) :
    ∃ sub, allNested (l.map (fun p => p.2.render (',' :: List.replicate p.1 ' '))) = .ok sub
      ∧ sub = l.flatMap (fun p => p.2.render (',' :: List.replicate p.1 ' ')
          :: p.2.inner (',' :: List.replicate p.1 ' ')) :=
  ⟨_, allNested_ok l h, rfl⟩

/-- **C17 fails as stated.** A field whose non-empty type name is `]` or `p]` reads outside the string; so does a
`*` field whose first requirement is the empty string; and a container field whose requirement is a map name
without a comma is rejected although it is a container. -/
theorem C17_field_classification_violated :
    (Field.make "f".toList "]".toList [] [] [] false false).IsUB
    ∧ (Field.make "f".toList "p]".toList [] [] [] false false).IsUB
    ∧ (Field.make "f".toList "*".toList [[]] [] [] false false).IsUB
    ∧ (Field.make "f".toList "*".toList ["java.util.Map<a>".toList] [] [] false false).Throws := by
  decide +kernel

example : (Field.make "f".toList "*".toList ["java.util.List<net.Foo>".toList] [] [] true false) =
    .ok ⟨.restricted, "f".toList, "*".toList, ["java.util.List<net.Foo>".toList], [], [], true, false,
      ["java.util.List<net.Foo>".toList, "net.Foo".toList]⟩ := by decide +kernel
example : (Field.make "f".toList "*".toList ["net.Foo".toList] [] [] true false).Throws := by decide +kernel

/-! ### C18: restricted types -/

/-- **C18, what does hold.** The class and element types of a restricted type, by source, choices and name:
* any other source than `list` and `map` is rejected;
* `list` with choices is an enum;
* `list` named `Outer<T>` is a list of `T`; `list` named `e[]` or `e[p]` with no bracket in `e` is an array of `e`;
* `map` named `java.util.Map<K,V>` is a map from `K` to `V`.
What is missing: arrays of arrays, and list names without type argument (see `C18_restricted_violated`). -/
theorem C18_restricted_partial (d name label : Str) (prov : List Str) (source : Str) (choices : List Str) :
    (source ≠ "list".toList → source ≠ "map".toList →
      (Restricted.make d name label prov source choices).Throws)
    ∧ (choices ≠ [] → Restricted.make d name label prov "list".toList choices
        = .ok ⟨name, label, prov, d, .enum choices⟩)
    ∧ (∀ outer t, name = outer ++ '<' :: (t ++ ['>']) → '<' ∉ outer → name.Small →
        Restricted.make d name label prov "list".toList [] = .ok ⟨name, label, prov, d, .list (unboxed t)⟩)
    ∧ (∀ e, (name = e ++ "[]".toList ∨ name = e ++ "[p]".toList) → '[' ∉ e →
        Restricted.make d name label prov "list".toList [] = .ok ⟨name, label, prov, d, .array (unboxed e)⟩)
    ∧ (∀ k v sp1 sp2, name = "java.util.Map".toList ++ '<' :: (sp1 ++ k ++ ',' :: (sp2 ++ v ++ ['>'])) →
        (∀ c ∈ sp1, c = ' ') → (∀ c ∈ sp2, c = ' ') → TypeName k → TypeName v → name.Small →
        Restricted.make d name label prov "map".toList choices
          = .ok ⟨name, label, prov, d, .map (unboxed k) (unboxed v)⟩) := by
  have hlm : ("map".toList = "list".toList) = False := by decide
  refine ⟨?_, ?_, ?_, ?_, ?_⟩
  · intro h1 h2
    simp only [Restricted.make, h1, h2, if_false, Res.Throws]
  · intro h
    simp only [Restricted.make, h, if_true, if_false, Res.pure_eq]
  · intro outer t hn ho hs
    have hl := listType_eq outer t ho (hn ▸ hs)
    have hub : ¬ ArrayUB name := by
      rw [hn]
      rintro (h | h | h)
      · simp at h
      · have h := congrArg List.length h; simp at h; omega
      · have h' := congrArg List.getLast? h
        simp [List.getLast?_append, List.getLast?_cons] at h'
    have hsuf : ¬ HasArraySuffix name := by
      rw [hn]
      rintro (⟨p, h⟩ | ⟨p, h⟩) <;>
      · have h' := congrArg List.getLast? h
        simp [List.getLast?_append, List.getLast?_cons] at h'
    obtain ⟨b, hb, hi⟩ := C08_is_array_partial name hub
    have hbf : b = false := by rw [← Bool.not_eq_true, hi]; exact hsuf
    simp only [Restricted.make, if_true, hb, hbf, Res.bind_eq, Res.bind, Bool.false_eq_true, if_false]
    rw [hn, hl]
    simp [unbox_eq_unboxed]
  · intro e hn he
    have hsuf : HasArraySuffix name := by
      rcases hn with h | h
      · exact .inl ⟨e, h.symm⟩
      · exact .inr ⟨e, h.symm⟩
    have hub : ¬ ArrayUB name := by
      rintro (h | h | h) <;> rw [h] at hsuf <;> revert hsuf <;> decide
    obtain ⟨b, hb, hi⟩ := C08_is_array_partial name hub
    have hat : arrayType name = e := by
      unfold arrayType
      have : ∀ x ∈ e, (x != '[') = true := by
        intro x hx; simp; rintro rfl; exact he hx
      rcases hn with h | h <;> rw [h] <;> rw [List.takeWhile_append_of_pos this] <;> simp
    simp only [Restricted.make, if_true, hb, hi.mpr hsuf, Res.bind_eq, Res.bind, hat, unbox_eq_unboxed, Res.pure_eq]
  · intro k v sp1 sp2 hn h1 h2 hk hv hs
    have := C06_map_type k v sp1 sp2 h1 h2 hk hv (hn ▸ hs)
    simp only [Restricted.make, hlm, if_false, if_true]
    rw [hn, this]
    simp

/-- **C18 fails as stated.** An array of arrays is taken for an array of the innermost element type; an array of
lists of arrays gets a broken element name; a list type with no type argument gets its own name without the last
letter as element type; and an unnamed list type is undefined behaviour. -/
theorem C18_restricted_violated :
    Restricted.make [] "int[][]".toList [] [] "list".toList []
      = .ok ⟨"int[][]".toList, [], [], [], .array "int".toList⟩
    ∧ Restricted.make [] "java.util.List<int[]>[]".toList [] [] "list".toList []
      = .ok ⟨"java.util.List<int[]>[]".toList, [], [], [], .array "java.util.List<int".toList⟩
    ∧ Restricted.make [] "java.util.List".toList [] [] "list".toList []
      = .ok ⟨"java.util.List".toList, [], [], [], .list "java.util.Lis".toList⟩
    ∧ (Restricted.make [] [] [] [] "list".toList []).IsUB := by decide +kernel

example : Restricted.make "fp".toList "java.util.List<java.lang.Long>".toList [] [] "list".toList []
    = .ok ⟨"java.util.List<java.lang.Long>".toList, [], [], "fp".toList, .list "long".toList⟩ := by decide +kernel

/-! ### C14, C15: dependency answers -/

/-- All field types of a composite can be asked for (no field of unknown custom type). -/
def Resolvable (c : Composite) : Prop := ∀ f ∈ c.fields, ∃ t, f.resolvedType = .ok t

/-- No container field of `c` has `n` nested inside it without being named `n` itself, and vice versa. -/
def Flat (c : Composite) (n : Str) : Prop :=
  ∀ f ∈ c.fields, f.AMQPType = .restricted_t → (n ∈ f.subTypes ↔ f.resolvedType = .ok n)

/-- The pairs of types for which the dependency code is right. -/
def Regular : TypeNotation → TypeNotation → Prop
  | .comp x, .comp y => Resolvable x ∧ Resolvable y ∧ Flat x y.name ∧ Flat y x.name
  | .comp x, .restr y => Resolvable x ∧ (∀ cs, y.kind = .enum cs → y.name ≠ x.name ∧ x.name ≠ [])
  | .restr x, .comp y => Resolvable y ∧ (∀ cs, x.kind = .enum cs → x.name ≠ y.name ∧ y.name ≠ [])
  | .restr x, .restr y =>
    match x.kind, y.kind with
    | .array _, _ => needs (.restr x) (.restr y) = false ∧ needs (.restr y) (.restr x) = false
    | _, .array _ => needs (.restr x) (.restr y) = false ∧ needs (.restr y) (.restr x) = false
    | .map _ _, .enum _ => needs (.restr x) (.restr y) = false ∧ x.name ≠ y.name
    | .enum _, .map _ _ => needs (.restr y) (.restr x) = false ∧ x.name ≠ y.name
    | _, _ => True

theorem Regular.symm {a b : TypeNotation} (h : Regular a b) : Regular b a := by
  cases a with
  | comp x => cases b with
    | comp y => exact ⟨h.2.1, h.1, h.2.2.2, h.2.2.1⟩
    | restr y => exact h
  | restr x => cases b with
    | comp y => exact h
    | restr y =>
      obtain ⟨xn, xl, xp, xd, xk⟩ := x
      obtain ⟨yn, yl, yp, yd, yk⟩ := y
      unfold Regular at h ⊢
      cases xk <;> cases yk <;> simp_all
      all_goals exact fun e => h.2 e.symm

theorem fieldTypeName_resolved (f : Field) (n : Str) (h : ∃ t, f.resolvedType = .ok t) :
    (fieldTypeName f == some n) = true ↔ f.resolvedType = .ok n := by
  obtain ⟨t, ht⟩ := h
  unfold fieldTypeName
  unfold Field.resolvedType at ht ⊢
  cases hk : f.kind <;> simp only [hk] at ht ⊢
  all_goals cases hr : f.requires <;> simp_all [front]

theorem anyResolved_eq (n : Str) (fs : List Field) (h : ∀ f ∈ fs, ∃ t, f.resolvedType = .ok t) :
    anyResolved n fs = .ok (fs.any (fun f => fieldTypeName f == some n)) := by
  induction fs with
  | nil => rfl
  | cons f fs ih =>
    obtain ⟨t, ht⟩ := h f (by simp)
    have hi := fieldTypeName_resolved f n ⟨t, ht⟩
    simp only [anyResolved, ht, Res.bind_eq, Res.bind, List.any_cons]
    by_cases hn : t = n
    · subst hn
      simp [hi.mpr ht]
    · have : (fieldTypeName f == some n) = false := by
        rw [← Bool.not_eq_true, hi, ht]; simpa using hn
      simp [hn, this, ih (fun f hf => h f (by simp [hf]))]

private theorem anyDeep_eq (n : Str) (fs : List Field) (h : ∀ f ∈ fs, ∃ t, f.resolvedType = .ok t)
    (hflat : ∀ f ∈ fs, f.AMQPType = .restricted_t → (n ∈ f.subTypes ↔ f.resolvedType = .ok n)) :
    anyDeep n fs = .ok (fs.any (fun f => fieldTypeName f == some n)) := by
  induction fs with
  | nil => rfl
  | cons f fs ih =>
    have ih := ih (fun f hf => h f (by simp [hf])) (fun f hf => hflat f (by simp [hf]))
    obtain ⟨t, ht⟩ := h f (by simp)
    have hi := fieldTypeName_resolved f n ⟨t, ht⟩
    simp only [anyDeep, ht, Res.bind_eq, Res.bind, List.any_cons]
    by_cases hr : f.AMQPType = .restricted_t
    · have hf := hflat f (by simp) hr
      simp only [hr, if_true]
      by_cases hn : n ∈ f.subTypes
      · simp [hn, hi.mpr (hf.mp hn)]
      · have : (fieldTypeName f == some n) = false := by
          rw [← Bool.not_eq_true, hi, ← hf]; exact hn
        simp [hn, this, ih]
    · simp only [hr, if_false]
      by_cases hn : t = n
      · subst hn
        simp [hi.mpr ht]
      · have : (fieldTypeName f == some n) = false := by
          rw [← Bool.not_eq_true, hi, ht]; simpa using hn
        simp [hn, this, ih]

/-- The answer the dependency code gives on a regular pair: 1 if the other type needs this one, otherwise 2 if
this one needs the other, otherwise 0. -/
theorem dependsOn_regular (a b : TypeNotation) (h : Regular a b) :
    a.dependsOn b = .ok (if needs b a then 1 else if needs a b then 2 else 0) := by
  cases a with
  | comp x => cases b with
    | comp y =>
      obtain ⟨h1, h2, h3, h4⟩ := h
      simp only [TypeNotation.dependsOn, Composite.rhsComposite, anyDeep_eq x.name y.fields h2 h4,
        anyResolved_eq y.name x.fields h1, needs, mentions, TypeNotation.name, Res.bind_eq, Res.bind, Res.pure_eq]
      split <;> simp_all
    | restr y =>
      obtain ⟨h1, h2⟩ := h
      obtain ⟨yn, yl, yp, yd, yk⟩ := y
      simp only [TypeNotation.dependsOn, Restricted.rhsComposite, anyResolved_eq yn x.fields h1, needs, mentions,
        TypeNotation.name, Res.bind_eq, Res.bind, Res.pure_eq]
      cases yk with
      | enum cs =>
        have hb : (yn == x.name) = false := by simpa using (h2 cs rfl).1
        simp [hb]
      | list l => dsimp only; split <;> simp_all
      | array l => dsimp only; split <;> simp_all
      | map k v => dsimp only; split <;> simp_all
  | restr x => cases b with
    | comp y =>
      obtain ⟨h1, h2⟩ := h
      obtain ⟨xn, xl, xp, xd, xk⟩ := x
      simp only [TypeNotation.dependsOn, Composite.rhsRestricted, anyResolved_eq xn y.fields h1, needs, mentions,
        TypeNotation.name, Res.bind_eq, Res.bind, Res.pure_eq]
      split
      · simp_all
      · rename_i hf
        simp only [hf]
        congr 1
        unfold Restricted.elems
        cases xk with
        | enum cs =>
          have := (h2 cs rfl).2
          simp [this]
        | list l => simp; grind
        | array l => simp; grind
        | map k v => simp; grind
    | restr y =>
      obtain ⟨xn, xl, xp, xd, xk⟩ := x
      obtain ⟨yn, yl, yp, yd, yk⟩ := y
      unfold Regular at h
      simp only [TypeNotation.dependsOn, Restricted.rhsRestricted, needs, mentions, TypeNotation.name]
      simp only [needs, mentions, TypeNotation.name] at h
      cases xk <;> cases yk <;> dsimp only at h ⊢ <;> simp at h ⊢ <;> grind

/-- **C15, what does hold.** For regular pairs, asking a needed type about its user answers 1 ("the other must
come after me"), and asking the user about the needed type answers 2 when the need is not mutual. -/
theorem C15_answers_reflect_use_partial (user needed : TypeNotation) (h : Regular user needed)
    (hu : needs user needed = true) :
    needed.dependsOn user = .ok 1 ∧ (needs needed user = false → user.dependsOn needed = .ok 2) := by
  rw [dependsOn_regular _ _ h, dependsOn_regular _ _ h.symm]
  simp_all

/-- **C14, what does hold.** For regular pairs that do not mutually need each other the answers are antisymmetric. -/
theorem C14_antisymmetric_partial (a b : TypeNotation) (h : Regular a b)
    (hm : ¬ (needs a b = true ∧ needs b a = true)) :
    (a.dependsOn b = .ok 1 ↔ b.dependsOn a = .ok 2)
    ∧ (a.dependsOn b = .ok 2 ↔ b.dependsOn a = .ok 1)
    ∧ (a.dependsOn b = .ok 0 ↔ b.dependsOn a = .ok 0) := by
  rw [dependsOn_regular _ _ h, dependsOn_regular _ _ h.symm]
  cases h1 : needs a b <;> cases h2 : needs b a <;> simp_all

/-! Witnesses. -/

/-- A map from an enum to int. -/
def enumT : TypeNotation := .restr ⟨"E".toList, [], [], "e".toList, .enum ["A".toList, "B".toList]⟩
def enumMapT : TypeNotation :=
  .restr ⟨"java.util.Map<E, int>".toList, [], [], "m".toList, .map "E".toList "int".toList⟩
def intArrayT : TypeNotation := .restr ⟨"int[p]".toList, [], [], "a".toList, .array "int".toList⟩
def arrayListT : TypeNotation :=
  .restr ⟨"java.util.List<int[p]>".toList, [], [], "l".toList, .list "int[p]".toList⟩
def enumArrayT : TypeNotation := .restr ⟨"E[]".toList, [], [], "ea".toList, .array "E".toList⟩
def fooT : TypeNotation := .comp ⟨"Foo".toList, [], [], "f".toList, []⟩
/-- A class with a field of type list of list of Foo. -/
def nestT : TypeNotation := .comp ⟨"Nest".toList, [], [], "n".toList,
  [⟨.restricted, "x".toList, "*".toList, ["java.util.List<java.util.List<Foo>>".toList], [], [], true, false,
    ["java.util.List<java.util.List<Foo>>".toList, "java.util.List<Foo>".toList, "Foo".toList]⟩]⟩
def customT : TypeNotation := .comp ⟨"Cust".toList, [], [], "c".toList,
  [⟨.custom, "x".toList, "*".toList, [], [], [], true, false, []⟩]⟩

/-- **C14 fails as stated.**
* A map over an enum and that enum both claim the other must come after them.
* An array of enums (or of lists, or a list of arrays) is recognised in one direction only.
* A class with a nested generic field over `Foo` is recognised in one direction only.
* A class with a `*` field without requirements makes the question undefined behaviour. -/
theorem C14_antisymmetric_violated :
    (enumMapT.dependsOn enumT = .ok 1 ∧ enumT.dependsOn enumMapT = .ok 1)
    ∧ (enumArrayT.dependsOn enumT = .ok 0 ∧ enumT.dependsOn enumArrayT = .ok 1)
    ∧ (arrayListT.dependsOn intArrayT = .ok 2 ∧ intArrayT.dependsOn arrayListT = .ok 0)
    ∧ (fooT.dependsOn nestT = .ok 1 ∧ nestT.dependsOn fooT = .ok 0)
    ∧ (fooT.dependsOn customT).IsUB := by decide +kernel

/-- **C15 fails as stated.** A list (or map) of arrays is not reported as coming after the array type. -/
theorem C15_answers_reflect_use_violated :
    needs arrayListT intArrayT = true ∧ intArrayT.dependsOn arrayListT = .ok 0
    ∧ needs enumMapT enumT = true ∧ enumMapT.dependsOn enumT = .ok 1 := by decide +kernel

/-- The regular pairs are not vacuous: a class and a list of it. -/
example : Regular fooT (.restr ⟨"java.util.List<Foo>".toList, [], [], [], .list "Foo".toList⟩)
    ∧ fooT.dependsOn (.restr ⟨"java.util.List<Foo>".toList, [], [], [], .list "Foo".toList⟩) = .ok 1 := by
  refine ⟨⟨by intro f hf; simp at hf, by intro cs h; simp at h⟩, by decide⟩

/-! ### C11-C13 for the schema types themselves -/

/-- The answers of a list of types, and 0 outside it. -/
private def ans (xs : List TypeNotation) (a b : TypeNotation) : Int :=
  if a ∈ xs ∧ b ∈ xs then (if needs b a then 1 else if needs a b then 2 else 0) else 0

/-- The need relation inside a list of types. -/
private def needsIn (xs : List TypeNotation) (a b : TypeNotation) : Prop := a ∈ xs ∧ b ∈ xs ∧ needs a b = true

/-- The answers of schema types are 0, 1 and 2. -/
theorem dependsOn_answers (a b : TypeNotation) (n : Int) (hn : a.dependsOn b = .ok n) : n = 0 ∨ n = 1 ∨ n = 2 := by
  cases a with
  | comp x => cases b with
    | comp y =>
      simp only [TypeNotation.dependsOn, Composite.rhsComposite, Res.bind_eq, Res.bind_eq_ok, Res.pure_eq] at hn
      obtain ⟨c, -, hn⟩ := hn
      split at hn
      · simp at hn; omega
      · rw [Res.bind_eq_ok] at hn
        obtain ⟨c, -, hn⟩ := hn
        cases c <;> simp at hn <;> omega
    | restr y =>
      have key : ∀ c : Bool, (if c = true then (Res.ok 1 : Res Int) else
          Res.bind (anyResolved y.name x.fields) (fun b => Res.ok (if b = true then 2 else 0))) = .ok n →
          n = 0 ∨ n = 1 ∨ n = 2 := by
        intro c hn
        split at hn
        · simp at hn; omega
        · rw [Res.bind_eq_ok] at hn
          obtain ⟨c, -, hn⟩ := hn
          cases c <;> simp at hn <;> omega
      exact key _ hn
  | restr x => cases b with
    | comp y =>
      simp only [TypeNotation.dependsOn, Composite.rhsRestricted, Res.bind_eq, Res.bind_eq_ok, Res.pure_eq] at hn
      obtain ⟨c, -, hn⟩ := hn
      split at hn
      · simp at hn; omega
      · split at hn <;> simp at hn <;> omega
    | restr y =>
      simp only [TypeNotation.dependsOn, Res.ok.injEq] at hn
      subst hn
      unfold Restricted.rhsRestricted
      repeat' split
      all_goals simp

/-- **C11 for schema types.** Whatever types are inserted, if the insertions succeed then the collection holds
exactly the inserted types and no level is empty. -/
theorem C11_schema_types (xs : List TypeNotation) (r : List (List TypeNotation))
    (h : insertAllR TypeNotation.dependsOn xs = .ok r) : r.flatten.Perm xs ∧ ∀ l ∈ r, l ≠ [] := by
  have h1 := insertAllR_ok h
  have ha : Answers (plain TypeNotation.dependsOn) := by
    intro a b
    unfold plain
    cases hd : a.dependsOn b with
    | ok n => exact dependsOn_answers a b n hd
    | throw m => simp
    | ub m => simp
  obtain ⟨r', h2, h3⟩ := C11_permutation (plain TypeNotation.dependsOn) ha xs
  have : r' = r := by rw [h1] at h2; exact (Option.some.inj h2).symm
  exact ⟨this ▸ h3, (C12_no_empty_level _ xs r h1).1⟩

/-- **C13 for schema types, what does hold.** If the types are pairwise regular, none mutually need each other, and
they arrive "transitively" (see `C13_order_partial`), then the collection is built without failure and every type
comes strictly after everything it names. -/
theorem C13_schema_types_partial (xs : List TypeNotation) (hreg : ∀ a ∈ xs, ∀ b ∈ xs, Regular a b)
    (hm : ∀ a ∈ xs, ∀ b ∈ xs, ¬ (needs a b = true ∧ needs b a = true))
    (ht : ∀ pre x post, xs = pre ++ x :: post → ∀ d ∈ pre, ∀ n ∈ pre,
      needs d x = true → needs x n = true → needs d n = true) :
    ∃ r, insertAllR TypeNotation.dependsOn xs = .ok r ∧ r.flatten.Perm xs
      ∧ NeedsEarlier (fun a b => needs a b = true) r := by
  have hd : ∀ a b, a ∈ xs → b ∈ xs → a.dependsOn b = .ok (ans xs a b) := by
    intro a b ha hb
    rw [dependsOn_regular a b (hreg a ha b hb)]
    simp [ans, ha, hb]
  obtain ⟨r, h1, h2⟩ := insertAllR_of (S := (· ∈ xs)) hd xs (fun x hx => hx)
  have hp := (C11_schema_types xs r h1).1
  refine ⟨r, h1, hp, ?_⟩
  have hc : Consistent (ans xs) (needsIn xs) := by
    intro a b
    unfold ans needsIn
    by_cases ha : a ∈ xs <;> by_cases hb : b ∈ xs <;> simp [ha, hb]
    have := hm a ha b hb
    cases h1 : needs a b <;> cases h2 : needs b a <;> simp_all
  have hans : Answers (ans xs) := by
    intro a b
    unfold ans
    repeat' split
    all_goals simp
  have := C13_order_partial (ans xs) (needsIn xs) hc hans xs
    (by
      intro pre x post e d hd n hn h3 h4
      exact ⟨h3.1, h4.2.1, ht pre x post e d hd n hn h3.2.2 h4.2.2⟩) r h2
  intro i j Li Lj hi hj a ha b hb hn
  refine this i j Li Lj hi hj a ha b hb ⟨hp.mem_iff.mp ?_, hp.mem_iff.mp ?_, hn⟩
  · exact List.mem_flatten.mpr ⟨Li, List.mem_of_getElem? hi, ha⟩
  · exact List.mem_flatten.mpr ⟨Lj, List.mem_of_getElem? hj, hb⟩

/-- **C13 fails for schema types.** A map over an enum, inserted before the enum, ends up before it; a list of
arrays inserted before the array type ends up in the same level. -/
theorem C13_schema_types_violated :
    (needs enumMapT enumT = true ∧ insertAllR TypeNotation.dependsOn [enumMapT, enumT] = .ok [[enumMapT], [enumT]])
    ∧ (needs arrayListT intArrayT = true
      ∧ insertAllR TypeNotation.dependsOn [arrayListT, intArrayT] = .ok [[intArrayT, arrayListT]]) := by
  decide +kernel

/-- A class, a list of it and a class using that list, in the order in which Corda writes them. -/
example :
    let l : TypeNotation := .restr ⟨"java.util.List<Foo>".toList, [], [], [], .list "Foo".toList⟩
    let u : TypeNotation := .comp ⟨"User".toList, [], [], [],
      [⟨.restricted, "x".toList, "*".toList, ["java.util.List<Foo>".toList], [], [], true, false,
        ["java.util.List<Foo>".toList, "Foo".toList]⟩]⟩
    insertAllR TypeNotation.dependsOn [u, l, fooT] = .ok [[fooT], [l], [u]] := by decide +kernel

#print axioms C11_schema_types
#print axioms C13_schema_types_partial
#print axioms C13_schema_types_violated
#print axioms C14_antisymmetric_partial
#print axioms C14_antisymmetric_violated
#print axioms C15_answers_reflect_use_partial
#print axioms C15_answers_reflect_use_violated
#print axioms C16_lookup
#print axioms C16_found_iff
#print axioms C17_field_reports
#print axioms C17_field_classification_partial
#print axioms C17_requirements_decompose
#print axioms C17_field_classification_violated
#print axioms C18_restricted_partial
#print axioms C18_restricted_violated

end Corda.Props
