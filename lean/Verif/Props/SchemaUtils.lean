import Verif.Lemmas.SchemaUtils
import Verif.Spec.SchemaTypes

/-
C05-C10, C50, C51: type names.
-/

namespace Corda.Props
open Corda Corda.Spec

/-- **C05.** `listType` takes `Outer<T>` apart for every text `T` whatever brackets it contains; the argument
is unboxed.  (The outer name, when it is `java.util.List`, comes back as is.) -/
theorem C05_list_type (t : Str) (hs : Str.Small ("java.util.List".toList ++ '<' :: (t ++ ['>']))) :
    listType ("java.util.List".toList ++ '<' :: (t ++ ['>'])) = .ok ("java.util.List".toList, unboxed t) := by
  have h := listType_eq "java.util.List".toList t (by decide) hs
  rw [h, unbox_eq_unboxed t, show unbox "java.util.List".toList = "java.util.List".toList from by decide]

example : listType "java.util.List<java.util.Map<int, java.util.List<net.Foo>>>".toList
    = .ok ("java.util.List".toList, "java.util.Map<int, java.util.List<net.Foo>>".toList) := by decide +kernel
example : listType "java.util.List<java.lang.Integer>".toList
    = .ok ("java.util.List".toList, "int".toList) := by decide +kernel

/-- **C06.** `mapType` splits `java.util.Map<K,V>` at the comma between key and value, with any number of
blanks around the arguments; both arguments are unboxed. -/
theorem C06_map_type (k v sp1 sp2 : Str) (hsp1 : ∀ c ∈ sp1, c = ' ') (hsp2 : ∀ c ∈ sp2, c = ' ')
    (hk : TypeName k) (hv : TypeName v)
    (hs : Str.Small ("java.util.Map".toList ++ '<' :: (sp1 ++ k ++ ',' :: (sp2 ++ v ++ ['>'])))) :
    mapType ("java.util.Map".toList ++ '<' :: (sp1 ++ k ++ ',' :: (sp2 ++ v ++ ['>'])))
      = .ok ("java.util.Map".toList, unboxed k, unboxed v) := by
  rw [mapType_eq _ k v sp1 sp2 (by decide) hsp1 hsp2 hk hv.2 hs, unbox_eq_unboxed, unbox_eq_unboxed]

example : mapType "java.util.Map<java.util.Map<a,b>, java.util.List<java.util.Map<c, d>>>".toList
    = .ok ("java.util.Map".toList, "java.util.Map<a,b>".toList, "java.util.List<java.util.Map<c, d>>".toList) := by
  decide +kernel

/-- A map name without a comma between key and value is rejected with an exception. -/
example : (mapType "java.util.Map<int>".toList).Throws := by decide +kernel

/-- **C07.** For every type tree the nested types of its rendered name are the name itself followed by the
proper sub-types in pre-order (each unboxed).  `k` blanks follow each comma. -/
theorem C07_nested_preorder (k : Nat) (t : Ty) (h : t.Ok)
    (hs : Str.Small (t.render (',' :: List.replicate k ' '))) :
    nestedGenericTypes (t.render (',' :: List.replicate k ' '))
      = .ok (t.render (',' :: List.replicate k ' ') :: t.inner (',' :: List.replicate k ' ')) :=
  (nestedGo_render k t h _ hs (Nat.lt_succ_self _)).1

/-- **C07, every input.** On every string, well-formed or not, `nestedGenericTypes` terminates: it returns or
throws, and never reads outside the string. -/
theorem C07_nested_total (s : Str) (hs : s.Small) : (nestedGenericTypes s).Defined :=
  nested_fuel_enough _ s hs (Nat.lt_succ_self _)

example : nestedGenericTypes "java.util.Map<java.lang.Long, java.util.List<java.util.Map<a, b>>>".toList
    = .ok ["java.util.Map<java.lang.Long, java.util.List<java.util.Map<a, b>>>".toList, "long".toList,
           "java.util.List<java.util.Map<a, b>>".toList, "java.util.Map<a, b>".toList, "a".toList, "b".toList] := by
  decide +kernel
example : (nestedGenericTypes "java.util.List".toList).Defined := by decide +kernel

/-- The strings on which `isArray` reads before the beginning of the string. -/
def ArrayUB (s : Str) : Prop := s = [] ∨ s = "]".toList ∨ s = "p]".toList

instance (s : Str) : Decidable (ArrayUB s) := by unfold ArrayUB; infer_instance

private theorem isPrefixOf_reverse (p s : Str) :
    p.reverse.isPrefixOf s.reverse = true ↔ p <:+ s := by
  rw [List.isPrefixOf_iff_prefix, List.reverse_prefix]

private theorem isArray_long (s : Str) (h : 3 ≤ s.length) :
    ∃ b, isArray s = .ok b ∧ (b = true ↔ HasArraySuffix s) := by
  have h1 := equalFromEnd_prefix s.reverse "[]".toList.reverse (by simp; omega)
  have h2 := equalFromEnd_prefix s.reverse "[p]".toList.reverse (by simp; omega)
  unfold isArray
  rw [h1, h2]
  by_cases ha : "[]".toList <:+ s
  · refine ⟨true, ?_, iff_of_true rfl (.inl ha)⟩
    rw [(isPrefixOf_reverse _ _).mpr ha]; rfl
  · refine ⟨"[p]".toList.reverse.isPrefixOf s.reverse, ?_, ?_⟩
    · have : "[]".toList.reverse.isPrefixOf s.reverse = false := by
        rw [← Bool.not_eq_true, isPrefixOf_reverse]; exact ha
      rw [this]; rfl
    · rw [isPrefixOf_reverse]; simp only [HasArraySuffix, ha, false_or]

/-- **C08, what does hold.** Except on three strings, `isArray` answers and means "ends in `[]` or `[p]`". -/
theorem C08_is_array_partial (s : Str) (h : ¬ ArrayUB s) :
    ∃ b, isArray s = .ok b ∧ (b = true ↔ HasArraySuffix s) := by
  match s with
  | [] => exact absurd (.inl rfl) h
  | [c] =>
    have hc : c ≠ ']' := fun e => h (.inr (.inl (by rw [e]; rfl)))
    refine ⟨false, ?_, ?_⟩
    · simp [isArray, equalFromEnd, hc]
    · simp only [Bool.false_eq_true, false_iff, HasArraySuffix, not_or]
      constructor <;> (intro e; have := e.length_le; simp at this)
  | [c, d] =>
    by_cases hd : d = ']'
    · subst hd
      by_cases hc : c = '['
      · subst hc; exact ⟨true, by decide, by simp [HasArraySuffix]⟩
      · have hp : c ≠ 'p' := fun e => h (.inr (.inr (by rw [e]; rfl)))
        refine ⟨false, by simp [isArray, equalFromEnd, hc, hp], ?_⟩
        simp only [Bool.false_eq_true, false_iff, HasArraySuffix, not_or]
        constructor
        · intro e
          have := e.eq_of_length (by simp)
          simp at this; exact hc this.symm
        · intro e; have := e.length_le; simp at this
    · refine ⟨false, by simp [isArray, equalFromEnd, hd], ?_⟩
      simp only [Bool.false_eq_true, false_iff, HasArraySuffix, not_or]
      constructor
      · intro e
        have := e.eq_of_length (by simp)
        simp at this; exact hd this.2.symm
      · intro e; have := e.length_le; simp at this
  | a :: b :: c :: s => exact isArray_long _ (by simp)

/-- **C08 fails as stated.** On the empty name, on `]` and on `p]` the comparison runs off the front of the
string (undefined behaviour), and on no other string. -/
theorem C08_is_array_violated (s : Str) : (isArray s).IsUB ↔ ArrayUB s := by
  constructor
  · intro h
    by_cases ha : ArrayUB s
    · exact ha
    · obtain ⟨b, hb, -⟩ := C08_is_array_partial s ha
      rw [hb] at h; exact absurd h (by simp [Res.IsUB])
  · rintro (rfl | rfl | rfl) <;> decide

example : (isArray []).IsUB := by decide
example : isArray "net.corda.Foo[]".toList = .ok true := by decide +kernel
example : isArray "int[p]".toList = .ok true := by decide +kernel
example : isArray "int[q]".toList = .ok false := by decide +kernel

/-- **C09.** `unbox` replaces exactly the eight wrapper names, changes nothing else, and is idempotent. -/
theorem C09_unbox (s : Str) :
    unbox s = unboxed s
    ∧ (unbox s ≠ s → ∃ p ∈ boxed, s = p.1.toList ∧ unbox s = p.2.toList)
    ∧ unbox (unbox s) = unbox s := by
  rw [unbox_eq_unboxed]
  refine ⟨rfl, ?_, ?_⟩
  · intro hne
    rcases unboxed_cases s with ⟨p, hp, h1, h2⟩ | ⟨-, h⟩
    · exact ⟨p, hp, h1.symm, h2⟩
    · exact absurd h hne
  · rw [unbox_eq_unboxed]
    rcases unboxed_cases s with ⟨p, hp, -, h2⟩ | ⟨-, h⟩
    · rw [h2]; clear h2; revert p; decide
    · rw [h, h]

example : boxed.map (fun p => unbox p.1.toList) = boxed.map (·.2.toList) := by decide
example : unbox "java.lang.String".toList = "java.lang.String".toList := by decide

/-- **C10 fails.** Of the eight wrapper types only Integer, Float, Long and Double have a reader for the name
that schema parsing produces; Boolean (`bool`), Byte and Character (`char`) and Short (`short`) do not. -/
theorem C10_boxed_readable_violated :
    ∀ p ∈ boxed, (∃ r, makePropertyReader (unbox p.1.toList) = .ok r) ↔
      p.1 ∈ ["java.lang.Integer", "java.lang.Float", "java.lang.Long", "java.lang.Double"] := by
  have : ∀ p ∈ boxed, ((makePropertyReader (unbox p.1.toList)).Throws ↔
      p.1 ∉ ["java.lang.Integer", "java.lang.Float", "java.lang.Long", "java.lang.Double"]) ∧
      (makePropertyReader (unbox p.1.toList)).Defined := by decide
  intro p hp
  have h := this p hp
  cases hr : makePropertyReader (unbox p.1.toList) with
  | ok a =>
    rw [hr] at h
    have h := h.1
    simp only [Res.Throws, false_iff, Decidable.not_not] at h
    exact iff_of_true ⟨a, rfl⟩ h
  | throw m => simp_all [Res.Throws]
  | ub w => simp_all [Res.Defined]

/-- **C10, what does hold**: the four wrapper types that are readable, and with which reader. -/
theorem C10_boxed_readable_partial :
    makePropertyReader (unbox "java.lang.Integer".toList) = .ok .int
    ∧ makePropertyReader (unbox "java.lang.Long".toList) = .ok .long
    ∧ makePropertyReader (unbox "java.lang.Float".toList) = .ok .float
    ∧ makePropertyReader (unbox "java.lang.Double".toList) = .ok .double := by decide

/-! ### C50: class names -/

/-- Specification of a demangled class name: a sequence of plain characters, scope operators and
anonymous-namespace qualifiers. -/
inductive Tok where
  | ch (c : Char)
  | scope
  | anon
  deriving DecidableEq, Repr

/-- How compilers spell an anonymous namespace. -/
def anonText : Str := "(anonymous namespace)::".toList

/-- The C++ spelling. -/
def Tok.cpp : Tok → Str
  | .ch c => [c]
  | .scope => [':', ':']
  | .anon => anonText

/-- The expected Java spelling. -/
def Tok.java : Tok → Str
  | .ch c => [c]
  | .scope => ['.']
  | .anon => []

/-- No plain colon, and no plain character with which a spelled-out anonymous-namespace qualifier begins: all
scope operators and qualifiers of the name are told as such. -/
def TokOk : List Tok → Prop
  | [] => True
  | .ch c :: ts => c ≠ ':' ∧ ¬ anonText <+: c :: ts.flatMap Tok.cpp ∧ TokOk ts
  | _ :: ts => TokOk ts

private theorem replaceAll_skip (find rep pre s : Str) : replaceAll find rep pre.length (pre ++ s) = replaceAll find rep 0 s := by
  induction pre with
  | nil => rfl
  | cons c pre ih => simpa [replaceAll] using ih

private theorem replaceAll_match (f : Char) (find rep s : Str) :
    replaceAll (f :: find) rep 0 ((f :: find) ++ s) = rep ++ replaceAll (f :: find) rep 0 s := by
  have : (f :: find).isPrefixOf (f :: (find ++ s)) = true := by
    rw [List.isPrefixOf_iff_prefix]; exact List.prefix_append (f :: find) s
  simp only [List.cons_append, replaceAll]
  rw [if_pos this]
  simp [replaceAll_skip]

private theorem replaceAll_nomatch (find rep : Str) (c : Char) (s : Str) (h : ¬ find <+: (c :: s)) :
    replaceAll find rep 0 (c :: s) = c :: replaceAll find rep 0 s := by
  have : find.isPrefixOf (c :: s) = false := by
    rw [← Bool.not_eq_true, List.isPrefixOf_iff_prefix]; exact h
  simp [replaceAll, this]

private def anonTail : Str := "anonymous namespace)::".toList
private theorem anon_eq : anon = '(' :: anonTail := by decide

/-- First loop: the qualifiers disappear. -/
private theorem anon_pass (ts : List Tok) (h : TokOk ts) :
    replaceAll anon [] 0 (ts.flatMap Tok.cpp)
      = (ts.filter (· ≠ .anon)).flatMap Tok.cpp := by
  induction ts with
  | nil => rfl
  | cons t ts ih =>
    cases t with
    | anon =>
      have := replaceAll_match '(' anonTail [] (ts.flatMap Tok.cpp)
      rw [← anon_eq] at this
      simp only [List.flatMap_cons, Tok.cpp]
      rw [show anonText = anon from rfl, this, ih h]
      simp
    | scope =>
      simp only [List.flatMap_cons, Tok.cpp]
      simp only [List.cons_append, List.nil_append]
      rw [replaceAll_nomatch _ _ _ _ (by
          rw [anon_eq]
          simp), replaceAll_nomatch _ _ _ _ (by
          rw [anon_eq]
          simp), ih h]
      simp [Tok.cpp]
    | ch c =>
      obtain ⟨hc, hp, hts⟩ := h
      simp only [List.flatMap_cons, Tok.cpp, List.cons_append, List.nil_append]
      rw [replaceAll_nomatch, ih hts]
      · simp [Tok.cpp]
      · exact hp

/-- Second loop: scope operators become dots. -/
private theorem scope_pass (ts : List Tok) (ha : ∀ t ∈ ts, t ≠ .anon) (hc : ∀ c, .ch c ∈ ts → c ≠ ':') :
    replaceAll "::".toList ".".toList 0 (ts.flatMap Tok.cpp) = ts.flatMap Tok.java := by
  rw [show "::".toList = [':', ':'] from by decide, show ".".toList = ['.'] from by decide]
  induction ts with
  | nil => rfl
  | cons t ts ih =>
    have ih := ih (fun t ht => ha t (by simp [ht])) (fun c h => hc c (by simp [h]))
    cases t with
    | anon => exact absurd rfl (ha .anon (by simp))
    | scope =>
      simp only [List.flatMap_cons, Tok.cpp, Tok.java]
      rw [replaceAll_match, ih]
    | ch c =>
      simp only [List.flatMap_cons, Tok.cpp, Tok.java, List.cons_append, List.nil_append]
      rw [replaceAll_nomatch, ih]
      have := hc c (by simp)
      rw [List.cons_prefix_cons]
      exact fun h => this h.1.symm

private theorem filter_java (ts : List Tok) : (ts.filter (· ≠ .anon)).flatMap Tok.java = ts.flatMap Tok.java := by
  induction ts with
  | nil => rfl
  | cons t ts ih => cases t <;> simp_all [Tok.java]

private theorem tokOk_ch {ts : List Tok} (h : TokOk ts) (c : Char) (hc : .ch c ∈ ts) : c ≠ ':' := by
  induction ts with
  | nil => simp at hc
  | cons t ts ih =>
    cases t with
    | ch d =>
      rcases List.mem_cons.mp hc with e | hc
      · cases e; exact h.1
      · exact ih h.2.2 hc
    | scope => exact ih h (by simpa using hc)
    | anon => exact ih h (by simpa using hc)

/-- **C50.** The Java name of a class is its demangled C++ name with anonymous-namespace qualifiers dropped,
`::` replaced by `.`, and everything else unchanged. -/
theorem C50_java_class_name (ts : List Tok) (h : TokOk ts) :
    javaClassName (ts.flatMap Tok.cpp) = ts.flatMap Tok.java := by
  unfold javaClassName
  rw [anon_pass ts h, scope_pass, filter_java]
  · intro t ht; simpa using (List.mem_filter.mp ht).2
  · intro c hc; exact tokOk_ch h c (List.mem_filter.mp hc).1

/-- The colons of a text come in pairs, as they do in every demangled name. -/
def Paired : Str → Prop
  | [] => True
  | ':' :: ':' :: s => Paired s
  | c :: s => c ≠ ':' ∧ Paired s

private theorem paired_char {c : Char} {s : Str} (hc : c ≠ ':') (h : Paired (c :: s)) : Paired s := by
  unfold Paired at h
  split at h
  · rename_i e; cases e
  · rename_i e; cases e; exact absurd rfl hc
  · rename_i e; cases e; exact h.2

private theorem paired_scope {s : Str} (h : Paired (':' :: ':' :: s)) : Paired s := by
  simpa [Paired] using h

private theorem paired_drop {p s : Str} (hp : ∀ c ∈ p, c ≠ ':') (h : Paired (p ++ s)) : Paired s := by
  induction p with
  | nil => exact h
  | cons c p ih =>
    exact ih (fun d hd => hp d (List.mem_cons_of_mem _ hd)) (paired_char (hp c List.mem_cons_self) h)

/-- **C50, nothing is left out.** Every text whose colons come in pairs is a sequence of plain characters, scope
operators and qualifiers in the sense of `C50_java_class_name`. -/
theorem C50_every_name (s : Str) (h : Paired s) : ∃ ts, TokOk ts ∧ ts.flatMap Tok.cpp = s := by
  induction hn : s.length using Nat.strongRecOn generalizing s with
  | ind n ih =>
    subst hn
    by_cases ha : anonText <+: s
    · obtain ⟨r, rfl⟩ := ha
      have hr : Paired r := by
        rw [show anonText = "(anonymous namespace)".toList ++ [':', ':'] from by decide, List.append_assoc] at h
        exact paired_scope (paired_drop (by decide) h)
      obtain ⟨ts, ht, rfl⟩ := ih r.length (by
        rw [List.length_append, show anonText.length = 23 from by decide]; omega) r hr rfl
      exact ⟨.anon :: ts, ht, rfl⟩
    · cases s with
      | nil => exact ⟨[], trivial, rfl⟩
      | cons c s =>
        by_cases hc : c = ':'
        · subst hc
          cases s with
          | nil => simp [Paired] at h
          | cons d s =>
            by_cases hd : d = ':'
            · subst hd
              obtain ⟨ts, ht, rfl⟩ := ih s.length (by simp only [List.length_cons]; omega) s (paired_scope h) rfl
              exact ⟨.scope :: ts, ht, rfl⟩
            · exfalso
              unfold Paired at h
              split at h
              · rename_i e; cases e
              · rename_i e; cases e; exact hd rfl
              · rename_i e; cases e; exact h.1 rfl
        · obtain ⟨ts, ht, rfl⟩ := ih s.length (by simp) s (paired_char hc h) rfl
          exact ⟨.ch c :: ts, ⟨hc, ha, ht⟩, rfl⟩

private theorem replaceAll_no_scope (skip : Nat) (s : Str) (d : Char) (hd : d ≠ ':') :
    ¬ [':', ':'] <:+: replaceAll [':', ':'] [d] skip s
    ∧ ((replaceAll [':', ':'] [d] 0 s).head? = some ':' → s.head? = some ':') := by
  induction s generalizing skip with
  | nil => cases skip <;> simp [replaceAll]
  | cons c s ih =>
    have key : ¬ [':', ':'] <:+: replaceAll [':', ':'] [d] 0 (c :: s) := by
      by_cases hm : [':', ':'] <+: c :: s
      · have hb : [':', ':'].isPrefixOf (c :: s) = true := List.isPrefixOf_iff_prefix.mpr hm
        rw [replaceAll, if_pos hb]
        have := (ih 1).1
        simp only [List.cons_append, List.nil_append, List.infix_cons_iff, not_or, List.cons_prefix_cons]
        exact ⟨fun h => hd h.1.symm, this⟩
      · rw [replaceAll_nomatch _ _ _ _ hm]
        simp only [List.infix_cons_iff, not_or]
        refine ⟨?_, (ih 0).1⟩
        rw [List.cons_prefix_cons]
        rintro ⟨rfl, hp⟩
        apply hm
        have h2 := (ih 0).2
        cases hr : replaceAll [':', ':'] [d] 0 s with
        | nil => rw [hr] at hp; simp at hp
        | cons e r =>
          rw [hr] at hp h2
          simp at hp
          have := h2 (by simp [← hp])
          cases s with
          | nil => simp at this
          | cons x xs => simp at this; simp [this]
    refine ⟨?_, ?_⟩
    · cases skip with
      | zero => exact key
      | succ n => simpa [replaceAll] using (ih n).1
    · by_cases hm : [':', ':'] <+: c :: s
      · have hb : [':', ':'].isPrefixOf (c :: s) = true := List.isPrefixOf_iff_prefix.mpr hm
        rw [replaceAll, if_pos hb]
        intro h; simp at h; exact absurd h hd
      · rw [replaceAll_nomatch _ _ _ _ hm]; simp

/-- **C50, every input.** Whatever the demangled name looks like, the Java name contains no `::`. -/
theorem C50_no_scope_operator (s : Str) : ¬ "::".toList <:+: javaClassName s := by
  unfold javaClassName
  rw [show "::".toList = [':', ':'] from by decide, show ".".toList = ['.'] from by decide]
  exact (replaceAll_no_scope 0 _ '.' (by decide)).1

example : javaClassName "(anonymous namespace)::test::Foo<(anonymous namespace)::Bar>".toList
    = "test.Foo<Bar>".toList := by decide +kernel
/-- Other parentheses stay. -/
example : javaClassName "run(app::Args)::(anonymous namespace)::Local".toList
    = "run(app.Args).Local".toList := by decide +kernel
/-- A spelling outside `TokOk`: removing a qualifier can create a new one, which is then only half removed. -/
example : javaClassName "(anonymous namespace)(anonymous namespace)::::Foo".toList
    = "(anonymous namespace).Foo".toList := by decide +kernel

/-! ### C51: names of container types written by the serialiser -/

/-- Specification: the type tree a C++ type stands for. -/
def CppType.tree : CppType → Ty
  | .other n => .leaf (javaClassName n)
  | .vector t => .list (CppType.tree t)
  | .map k v => .map (CppType.tree k) (CppType.tree v)

theorem javaTypeName_render (t : CppType) : javaTypeName t = (CppType.tree t).render [','] := by
  induction t with
  | other n => rfl
  | vector t ih => rw [javaTypeName, CppType.tree, Ty.render, ih]; rfl
  | map k v ih1 ih2 => rw [javaTypeName, CppType.tree, Ty.render, ih1, ih2]; rfl

/-- **C51.** The Java name generated for a vector or map type of any nesting depth is taken apart by the
schema reader into exactly the names of its component types, in pre-order. -/
theorem C51_generated_names_decompose (t : CppType) (h : (CppType.tree t).Ok) (hs : Str.Small (javaTypeName t)) :
    nestedGenericTypes (javaTypeName t) = .ok (javaTypeName t :: (CppType.tree t).inner [',']) := by
  rw [javaTypeName_render] at hs ⊢
  exact C07_nested_preorder 0 _ h hs

example : nestedGenericTypes (javaTypeName (.map (.other "int".toList) (.vector (.other "a::B".toList))))
    = .ok ["java.util.Map<int,java.util.List<a.B>>".toList, "int".toList, "java.util.List<a.B>".toList,
           "a.B".toList] := by decide +kernel

#print axioms C05_list_type
#print axioms C06_map_type
#print axioms C07_nested_preorder
#print axioms C07_nested_total
#print axioms C08_is_array_partial
#print axioms C08_is_array_violated
#print axioms C09_unbox
#print axioms C10_boxed_readable_violated
#print axioms C10_boxed_readable_partial
#print axioms C50_java_class_name
#print axioms C50_every_name
#print axioms C50_no_scope_operator
#print axioms C51_generated_names_decompose

end Corda.Props
