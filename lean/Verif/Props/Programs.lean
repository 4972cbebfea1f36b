import Verif.Model.Programs
import Verif.Lemmas.Conforms
import Verif.Props.Wire

/-
C75: objects of classes the inspector can show; what the sample programs write.
-/

namespace Corda.Props
open Corda Prog Spec Programs

/-- A schema the inspector can handle: the classes and their properties in alphabetical order, each understood by the library as the type
beside it; the types are put into an order in which each finds the readers it needs; names and fingerprints tell types apart; no type has
the name of a primitive type or of `java.security.PublicKey`; maps only if the compiler evaluates arguments from left to right. -/
structure Presentable (leftFirst : Bool) (ds : List ClassDesc) (ts : List TypeNotation) : Prop where
  alphabet : InAlphabet ds
  made : (ds.map classType).map TypeDesc.make = ts.map Res.ok
  sound : Sound leftFirst ts
  ordered : ∃ ls, insertAllR TypeNotation.dependsOn ts = .ok ls ∧ Ordered [publicKeyType] ls.flatten

/-- **C75.** Take any schema the inspector can handle, and any graph of objects of its classes, however large: lists of any length, objects
nested to any depth.  If there is an object of each class, serialising succeeds, and inspecting the result shows the objects: each property's
name with its value. -/
theorem C75_conforming {leftFirst : Bool} {ds : List ClassDesc} {ts : List TypeNotation} (hp : Presentable leftFirst ds ts) {o : Obj}
    (hc : Conforms ds o) (hv : Showable ts o) :
    ∃ n, serialise o = .ok [n] ∧ ∀ c : Cursor, c.cur = some n → inspect leftFirst c = (.ok (parsedText (objVal o)), c) := by
  obtain ⟨hd, hn, hu, ha⟩ := conforms_describes hc hp.alphabet
  obtain ⟨ns, hs⟩ := C30_succeeds o hn (showable_prints o hv)
  obtain ⟨ts', rfl⟩ := C30_blob o ns hs
  obtain ⟨ls, hl, ho⟩ := hp.ordered
  exact ⟨_, hs, fun c hcur => C38_inspect_written_partial leftFirst o _ hs hn hu ha ds hd ts hp.made hp.sound hv ls hl ho c hcur⟩

private theorem saved (bytes : List Byte) : (CordaBytes.ofBlob bytes).toFile = magic ++ 0 :: bytes := by
  have : (AMQP_HEADERS[1]'(by decide)).take 7 = magic := by decide
  simp [CordaBytes.toFile, CordaBytes.ofBlob, this]

/-- The object is serialised, and whatever encoding of the result is saved with `toFile`, the blob inspector prints this and exits with 0. -/
def SavedAndShown (leftFirst : Bool) (o : Obj) (text : Str) : Prop :=
  ∃ n, serialise o = .ok [n] ∧ ∀ bytes, Encodes bytes n → bytes.length < 2 ^ 62 → ∀ path,
    blobInspector leftFirst (holding (CordaBytes.ofBlob bytes).toFile) [path] = .exit 0 (text ++ ['\n'])

/-- **C75, files.** The same through a file, in any encoding. -/
theorem C75_conforming_file {leftFirst : Bool} {ds : List ClassDesc} {ts : List TypeNotation} (hp : Presentable leftFirst ds ts) {o : Obj}
    (hc : Conforms ds o) (hv : Showable ts o) : SavedAndShown leftFirst o (parsedText (objVal o)) := by
  obtain ⟨n, hs, hi⟩ := C75_conforming hp hc hv
  refine ⟨n, hs, fun bytes hb hlen path => ?_⟩
  have hdec : (holding (CordaBytes.ofBlob bytes).toFile).decode bytes = some (bytes.length, n) := by
    have := C71_decoded hb []
    simpa [holding, amqpSystem] using this
  have hfit : FilesFit (holding (CordaBytes.ofBlob bytes).toFile) := by
    intro p c hcf
    cases hcf
    rw [saved]
    simp only [List.length_append, List.length_cons, magic_length]
    omega
  rw [(C70_saved leftFirst _ hfit path bytes n rfl hdec _).1, hi (Cursor.root n) rfl]

/-- The types the library makes of these classes. -/
def typesOf (ds : List ClassDesc) : List TypeNotation :=
  (ds.map classType).filterMap fun d => match d.make with
    | .ok t => some t
    | _ => none

def plainField (f : Field) : Bool :=
  f.kind != .custom && (match fieldTypeName f with
    | none => false
    | some t => f.kind == .primitive || !readable.contains t)

/-- `Presentable`, computed. -/
def presentable (leftFirst : Bool) (ds : List ClassDesc) : Bool :=
  inAlphabet ds && decide ((ds.map classType).map TypeDesc.make = (typesOf ds).map Res.ok)
  && (typesOf ds).all (fun t => !readable.contains t.name && t.name != publicKeyType && (match t with
      | .comp c => c.fields.all plainField
      | .restr r => (match r.kind with
        | .map _ _ => leftFirst
        | _ => true)))
  && (typesOf ds).all (fun t => (typesOf ds).all fun u => (t.name != u.name || t == u) && (t.descriptor != u.descriptor || t == u))
  && (match insertAllR TypeNotation.dependsOn (typesOf ds) with
      | .ok ls => decide (Ordered [publicKeyType] ls.flatten)
      | _ => false)

theorem presentable_sound {leftFirst : Bool} {ds : List ClassDesc} (h : presentable leftFirst ds = true) :
    Presentable leftFirst ds (typesOf ds) := by
  unfold presentable at h
  simp only [Bool.and_eq_true] at h
  obtain ⟨⟨⟨⟨h1, h2⟩, h3⟩, h4⟩, h5⟩ := h
  rw [List.all_eq_true] at h3 h4
  refine ⟨(inAlphabet_iff ds).1 h1, decide_eq_true_eq.mp h2, ⟨?_, ?_, ?_, ?_, ?_⟩, ?_⟩
  · intro t ht
    have := h3 t ht
    simp only [Bool.and_eq_true, Bool.not_eq_true', List.contains_eq_mem, decide_eq_false_iff_not] at this
    refine ⟨this.1.1, fun c hc f hf => ?_⟩
    subst hc
    have hpf := List.all_eq_true.mp this.2 f hf
    unfold plainField at hpf
    rw [Bool.and_eq_true, bne_iff_ne] at hpf
    cases hn : fieldTypeName f with
    | none => rw [hn] at hpf; simp at hpf
    | some u =>
      rw [hn] at hpf
      refine ⟨hpf.1, ⟨u, hn⟩, fun hk v hv => ?_⟩
      rw [hn] at hv
      cases hv
      have := hpf.2
      simp only [Bool.or_eq_true, beq_iff_eq, Bool.not_eq_true', List.contains_eq_mem, decide_eq_false_iff_not] at this
      exact this.resolve_left hk
  · intro t ht
    have := h3 t ht
    simp only [Bool.and_eq_true, bne_iff_ne] at this
    exact this.1.2
  · intro t ht u hu he
    have := List.all_eq_true.mp (h4 t ht) u hu
    simp only [Bool.and_eq_true, Bool.or_eq_true, bne_iff_ne, beq_iff_eq] at this
    exact this.1.resolve_left fun h => h he
  · intro t ht u hu he
    have := List.all_eq_true.mp (h4 t ht) u hu
    simp only [Bool.and_eq_true, Bool.or_eq_true, bne_iff_ne, beq_iff_eq] at this
    exact this.2.resolve_left fun h => h he
  · intro r k v hr hk
    have := h3 _ hr
    simp only [Bool.and_eq_true, hk] at this
    exact this.2
  · cases hi : insertAllR TypeNotation.dependsOn (typesOf ds) with
    | ok ls => rw [hi] at h5; exact ⟨ls, rfl, decide_eq_true_eq.mp h5⟩
    | throw m => rw [hi] at h5; simp at h5
    | ub m => rw [hi] at h5; simp at h5

/-! ### The sample programs -/

/-- A composite class, by members as it writes them. -/
def composite (n fp : Str) (ms : List Member) : ClassDesc := ⟨(javaTypeName (named n), fp), .inl (ms.map memberDesc)⟩
def vectorClass (t : CppType) (fp : Str) : ClassDesc := ⟨(javaTypeName (.vector t), fp), .inr "list".toList⟩
def mapClass (k v : CppType) (fp : Str) : ClassDesc := ⟨(javaTypeName (.map k v), fp), .inr "map".toList⟩

/-- The text the inspector prints around the outermost object. -/
def whole (properties : List Str) : Str := "{ Parsed : ".toList ++ braces properties ++ " }".toList

theorem whole_eq (f : Str) (ns : List Str) (vs : List PVal) (l : List Str) (h : shownNamed ns vs = l) :
    parsedText (.obj f ns vs) = whole l := by
  unfold parsedText whole
  rw [shown, h]

/-- **C75, writer-test-01.** -/
theorem C75_writer01 (lf : Bool) (val : Int) :
    SavedAndShown lf (writer01 val) (whole [colon mVal (decimal val), colon mVal2 (decimal (val + 50))]) := by
  refine C75_conforming_file (ds := [composite nDSM fDSM123 [.prim mVal false (.int 0), .prim mVal2 true (.int 0)]])
    (presentable_sound (by cases lf <;> decide +kernel)) (conforms_of (within_comp List.mem_cons_self ?_) ?_) ?_
  · simp only [List.forall_mem_cons]
    exact ⟨within_primM .., within_primM .., by simp⟩
  · intro d hd
    cases List.mem_singleton.mp hd
    exact classes_self_comp _ _ _
  · exact ⟨trivial, trivial, trivial⟩

/-- **C75, writer-test-02.** -/
theorem C75_writer02 (lf : Bool) (a b c : Int) :
    SavedAndShown lf (writer02 a b c) (whole [colon mA (decimal a), colon mB (decimal b), colon mC (decimal c)]) := by
  refine C75_conforming_file
    (ds := [composite nDSM fDSM123 [.prim mA false (.int 0), .prim mB false (.int 0), .prim mC false (.int 0)]])
    (presentable_sound (by cases lf <;> decide +kernel)) (conforms_of (within_comp List.mem_cons_self ?_) ?_) ?_
  · simp only [List.forall_mem_cons]
    exact ⟨within_primM .., within_primM .., within_primM .., by simp⟩
  · intro d hd
    cases List.mem_singleton.mp hd
    exact classes_self_comp _ _ _
  · exact ⟨trivial, trivial, trivial, trivial⟩

/-- **C75, writer-test-03.** -/
theorem C75_writer03 (lf : Bool) (a b : Str) :
    SavedAndShown lf (writer03 a b) (whole [colon mA (quoted a), colon mB (quoted b)]) := by
  refine C75_conforming_file (ds := [composite nDSM fDSM123 [.prim mA false (.string []), .prim mB false (.string [])]])
    (presentable_sound (by cases lf <;> decide +kernel)) (conforms_of (within_comp List.mem_cons_self ?_) ?_) ?_
  · simp only [List.forall_mem_cons]
    exact ⟨within_primM .., within_primM .., by simp⟩
  · intro d hd
    cases List.mem_singleton.mp hd
    exact classes_self_comp _ _ _
  · exact ⟨trivial, trivial, trivial⟩

def schema05 : List ClassDesc :=
  [composite nRecursive fOuter_123 [.prim mA false (.int 0), .prim mB false (.string []), .nullObj mC (javaTypeName (named nRecursive))]]

/-- The text of the chain of writer-test-05. -/
def chainText (a : Int) (b : Str) : List (Int × Str) → Str
  | [] => braces [colon mA (decimal a), colon mB (quoted b), colon mC "<<NULL>>".toList]
  | (a', b') :: rest => braces [colon mA (decimal a), colon mB (quoted b), colon mC (chainText a' b' rest)]

private theorem chain_class (a : Int) (b : Str) (rest : List (Int × Str)) :
    ((javaTypeName (named nRecursive), fOuter_123), none) ∈ classes (writer05 a b rest) := by
  cases rest <;> exact classes_self_comp _ _ _

private theorem chain_within (a : Int) (b : Str) (rest : List (Int × Str)) : WithinObj schema05 (writer05 a b rest) := by
  induction rest generalizing a b with
  | nil =>
    refine within_comp List.mem_cons_self ?_
    simp only [List.forall_mem_cons]
    exact ⟨within_primM .., within_primM .., within_nullObj .., by simp⟩
  | cons x rest ih =>
    refine within_comp List.mem_cons_self ?_
    simp only [List.forall_mem_cons]
    exact ⟨within_primM .., within_primM .., within_objM _ _ _ (ih x.1 x.2), by simp⟩

private theorem chain_name (a : Int) (b : Str) (rest : List (Int × Str)) :
    (writer05 a b rest).name = javaTypeName (named nRecursive) := by
  cases rest <;> rfl

private theorem chain_showable (a : Int) (b : Str) (rest : List (Int × Str)) : Showable (typesOf schema05) (writer05 a b rest) := by
  induction rest generalizing a b with
  | nil =>
    refine ⟨trivial, trivial, ⟨⟨javaTypeName (named nRecursive), [], [], fOuter_123,
      [⟨.primitive, mA, "int".toList, [], [], [], false, false, []⟩, ⟨.primitive, mB, "string".toList, [], [], [], false, false, []⟩,
       ⟨.composite, mC, javaTypeName (named nRecursive), [], [], [], false, false, []⟩]⟩, ?_, rfl⟩, trivial⟩
    decide +kernel
  | cons x rest ih => exact ⟨trivial, trivial, ⟨(chain_name _ _ _).symm, ih x.1 x.2⟩, trivial⟩

private theorem chain_text (a : Int) (b : Str) (rest : List (Int × Str)) : shown (objVal (writer05 a b rest)) = chainText a b rest := by
  induction rest generalizing a b with
  | nil => rfl
  | cons x rest ih =>
    have := ih x.1 x.2
    show braces [colon mA _, colon mB _, colon mC (shown (objVal (writer05 x.1 x.2 rest)))] = _
    rw [this]
    rfl

/-- **C75, writer-test-05**: a chain of any length of objects of a class that refers to itself. -/
theorem C75_writer05 (lf : Bool) (a : Int) (b : Str) (rest : List (Int × Str)) :
    SavedAndShown lf (writer05 a b rest) ("{ Parsed : ".toList ++ chainText a b rest ++ " }".toList) := by
  rw [← chain_text]
  refine C75_conforming_file (ds := schema05) (presentable_sound (by cases lf <;> decide +kernel)) (conforms_of (chain_within a b rest) ?_)
    (chain_showable a b rest)
  intro d hd
  cases List.mem_singleton.mp hd
  exact chain_class a b rest

/-- **C75, writer-test-06**: a list of texts. -/
theorem C75_writer06 (lf : Bool) (l : List Str) :
    SavedAndShown lf (writer06 l) (whole [colon mList (brackets (l.map quoted))]) := by
  have ht : parsedText (objVal (writer06 l)) = whole [colon mList (brackets (l.map quoted))] := by
    refine whole_eq _ _ _ _ ?_
    show [colon mList (shown (.list f06v (elemVals (l.map fun s => Elem.prim (.string s)))))] = _
    rw [elemVals_eq, shown, shownAll_eq, List.map_map, List.map_map]
    rfl
  rw [← ht]
  refine C75_conforming_file (ds := [composite nContainsList f06 [holds mList (.vector cppString) (vectorOf cppString f06v [])],
    vectorClass cppString f06v]) (presentable_sound (by cases lf <;> decide +kernel))
    (conforms_of (within_comp List.mem_cons_self ?_) ?_) ?_
  · simp only [List.forall_mem_cons]
    refine ⟨within_objM _ _ _ (within_list (List.mem_cons_of_mem _ List.mem_cons_self) ?_), by simp⟩
    intro e he
    obtain ⟨s, -, rfl⟩ := List.mem_map.mp he
    exact within_prim _
  · refine List.forall_mem_cons.2 ⟨classes_self_comp _ _ _, List.forall_mem_cons.2 ⟨?_, by simp⟩⟩
    exact classes_in_comp List.mem_cons_self (classes_self_list _ _ _)
  · refine ⟨⟨rfl, ⟨javaTypeName (.vector cppString), [], [], f06v, .list "string".toList⟩, "string".toList, ?_, rfl, rfl, .inl rfl, ?_⟩, trivial⟩
    · decide +kernel
    · rw [showableElems_iff]
      intro e he
      obtain ⟨s, -, rfl⟩ := List.mem_map.mp he
      exact ⟨rfl, trivial⟩

private theorem ints_text (f : Str) (ns : List Int) :
    shown (.list f (elemVals (ns.map fun n => Elem.prim (.int n)))) = brackets (ns.map decimal) := by
  rw [elemVals_eq, shown, shownAll_eq, List.map_map, List.map_map]
  rfl

private theorem ints_within {ds : List ClassDesc} {fp : Str} (h : vectorClass cppInt fp ∈ ds) (ns : List Int) :
    WithinObj ds (vectorOf cppInt fp (ns.map fun n => .prim (.int n))) := by
  refine within_list h ?_
  intro e he
  obtain ⟨s, -, rfl⟩ := List.mem_map.mp he
  exact within_prim _

private theorem ints_showable {ts : List TypeNotation} {fp : Str}
    (h : .restr ⟨javaTypeName (.vector cppInt), [], [], fp, .list "int".toList⟩ ∈ ts) (ns : List Int) :
    Showable ts (vectorOf cppInt fp (ns.map fun n => .prim (.int n))) := by
  refine ⟨_, "int".toList, h, rfl, rfl, .inl rfl, ?_⟩
  rw [showableElems_iff]
  intro e he
  obtain ⟨s, -, rfl⟩ := List.mem_map.mp he
  exact ⟨rfl, trivial⟩

/-- **C75, writer-test-07**: a list of integers. -/
theorem C75_writer07 (lf : Bool) (l : List Int) :
    SavedAndShown lf (writer07 l) (whole [colon mList (brackets (l.map decimal))]) := by
  have ht : parsedText (objVal (writer07 l)) = whole [colon mList (brackets (l.map decimal))] := by
    refine whole_eq _ _ _ _ ?_
    show [colon mList (shown (.list f07v (elemVals (l.map fun s => Elem.prim (.int s)))))] = _
    rw [ints_text]
  rw [← ht]
  refine C75_conforming_file (ds := [composite nContainsList f07 [holds mList (.vector cppInt) (vectorOf cppInt f07v [])],
    vectorClass cppInt f07v]) (presentable_sound (by cases lf <;> decide +kernel))
    (conforms_of (within_comp List.mem_cons_self ?_) ?_) ?_
  · simp only [List.forall_mem_cons]
    exact ⟨within_objM _ _ _ (ints_within (List.mem_cons_of_mem _ List.mem_cons_self) l), by simp⟩
  · refine List.forall_mem_cons.2 ⟨classes_self_comp _ _ _, List.forall_mem_cons.2 ⟨?_, by simp⟩⟩
    exact classes_in_comp List.mem_cons_self (classes_self_list _ _ _)
  · exact ⟨⟨rfl, ints_showable (by decide +kernel) l⟩, trivial⟩

/-- The text of a `Composite` of writer-test-08. -/
def text08 (x : Str × Nat) : Str := braces [colon mA (quoted x.1), colon mB (doubleStr x.2)]

/-- **C75, writer-test-08**: a list of objects, if it is not empty. -/
theorem C75_writer08_partial (lf : Bool) (l : List (Str × Nat)) (hl : l ≠ []) :
    SavedAndShown lf (writer08 l) (whole [colon mList (brackets (l.map text08))]) := by
  have ht : parsedText (objVal (writer08 l)) = whole [colon mList (brackets (l.map text08))] := by
    refine whole_eq _ _ _ _ ?_
    show [colon mList (shown (.list f08v (elemVals (l.map fun x => Elem.obj (composite08 x)))))] = _
    rw [elemVals_eq, shown, shownAll_eq, List.map_map, List.map_map]
    rfl
  rw [← ht]
  refine C75_conforming_file (ds := [composite nComposite f08c [.prim mA false (.string []), .prim mB false (.double 0)],
    composite nCompositeList f08 [holds mList (.vector (named nComposite)) (vectorOf (named nComposite) f08v [])],
    vectorClass (named nComposite) f08v]) (presentable_sound (by cases lf <;> decide +kernel))
    (conforms_of (within_comp (List.mem_cons_of_mem _ List.mem_cons_self) ?_) ?_) ?_
  · simp only [List.forall_mem_cons]
    refine ⟨within_objM _ _ _ (within_list (List.mem_cons_of_mem _ (List.mem_cons_of_mem _ List.mem_cons_self)) ?_), by simp⟩
    intro e he
    obtain ⟨x, -, rfl⟩ := List.mem_map.mp he
    refine within_objE (within_comp List.mem_cons_self ?_)
    simp only [List.forall_mem_cons]
    exact ⟨within_primM .., within_primM .., by simp⟩
  · obtain ⟨x, l, rfl⟩ := List.exists_cons_of_ne_nil hl
    refine List.forall_mem_cons.2 ⟨?_, List.forall_mem_cons.2 ⟨classes_self_comp _ _ _, List.forall_mem_cons.2 ⟨?_, by simp⟩⟩⟩
    · exact classes_in_comp List.mem_cons_self (classes_in_list (o := composite08 x) List.mem_cons_self (classes_self_comp _ _ _))
    · exact classes_in_comp List.mem_cons_self (classes_self_list _ _ _)
  · refine ⟨⟨rfl, ⟨javaTypeName (.vector (named nComposite)), [], [], f08v, .list (javaTypeName (named nComposite))⟩,
      javaTypeName (named nComposite), ?_, rfl, rfl, .inl rfl, ?_⟩, trivial⟩
    · decide +kernel
    · rw [showableElems_iff]
      intro e he
      obtain ⟨s, -, rfl⟩ := List.mem_map.mp he
      exact ⟨rfl, trivial, trivial, trivial⟩

/-- **C75, writer-test-09**: a list of lists, if it is not empty. -/
theorem C75_writer09_partial (lf : Bool) (l : List (List Int)) (hl : l ≠ []) :
    SavedAndShown lf (writer09 l) (whole [colon mList (brackets (l.map fun ns => brackets (ns.map decimal)))]) := by
  have ht : parsedText (objVal (writer09 l)) = whole [colon mList (brackets (l.map fun ns => brackets (ns.map decimal)))] := by
    refine whole_eq _ _ _ _ ?_
    show [colon mList (shown (.list f09w (elemVals (l.map fun ns =>
      Elem.obj (vectorOf cppInt f09v (ns.map fun n => .prim (.int n)))))))] = _
    rw [elemVals_eq, shown, shownAll_eq, List.map_map, List.map_map]
    congr 3
    refine List.map_congr_left fun ns _ => ?_
    exact ints_text f09v ns
  rw [← ht]
  refine C75_conforming_file (ds := [composite nListOfLists f09
      [holds mList (.vector (.vector cppInt)) (vectorOf (.vector cppInt) f09w [])],
    vectorClass cppInt f09v, vectorClass (.vector cppInt) f09w]) (presentable_sound (by cases lf <;> decide +kernel))
    (conforms_of (within_comp List.mem_cons_self ?_) ?_) ?_
  · simp only [List.forall_mem_cons]
    refine ⟨within_objM _ _ _ (within_list (List.mem_cons_of_mem _ (List.mem_cons_of_mem _ List.mem_cons_self)) ?_), by simp⟩
    intro e he
    obtain ⟨ns, -, rfl⟩ := List.mem_map.mp he
    exact within_objE (ints_within (List.mem_cons_of_mem _ List.mem_cons_self) ns)
  · obtain ⟨x, l, rfl⟩ := List.exists_cons_of_ne_nil hl
    refine List.forall_mem_cons.2 ⟨classes_self_comp _ _ _, List.forall_mem_cons.2 ⟨?_, List.forall_mem_cons.2 ⟨?_, by simp⟩⟩⟩
    · exact classes_in_comp List.mem_cons_self
        (classes_in_list (o := vectorOf cppInt f09v (x.map fun n => .prim (.int n))) List.mem_cons_self (classes_self_list _ _ _))
    · exact classes_in_comp List.mem_cons_self (classes_self_list _ _ _)
  · refine ⟨⟨rfl, ⟨javaTypeName (.vector (.vector cppInt)), [], [], f09w, .list (javaTypeName (.vector cppInt))⟩,
      javaTypeName (.vector cppInt), ?_, rfl, rfl, .inl rfl, ?_⟩, trivial⟩
    · decide +kernel
    · rw [showableElems_iff]
      intro e he
      obtain ⟨ns, -, rfl⟩ := List.mem_map.mp he
      exact ⟨rfl, ints_showable (by decide +kernel) ns⟩

/-- **C75, writer-test-10**: a map of integers, where the compiler evaluates arguments from left to right. -/
theorem C75_writer10_partial (m : List (Int × Int)) :
    SavedAndShown true (writer10 m) (whole [colon mMap (braces (m.map fun e => colon (decimal e.1) (decimal e.2)))]) := by
  have ht : parsedText (objVal (writer10 m)) = whole [colon mMap (braces (m.map fun e => colon (decimal e.1) (decimal e.2)))] := by
    refine whole_eq _ _ _ _ ?_
    show [colon mMap (shown (.map f10m (entryVals (m.map fun e => Entry.mk (.prim (.int e.1)) (.prim (.int e.2))))))] = _
    rw [entryVals_eq, shown, shownEntries_eq, List.map_map, List.map_map]
    rfl
  rw [← ht]
  refine C75_conforming_file (ds := [composite nMapIntInt f10 [holds mMap (.map cppInt cppInt) (mapOf cppInt cppInt f10m [])],
    mapClass cppInt cppInt f10m]) (presentable_sound (by decide +kernel))
    (conforms_of (within_comp List.mem_cons_self ?_) ?_) ?_
  · simp only [List.forall_mem_cons]
    refine ⟨within_objM _ _ _ (within_map (List.mem_cons_of_mem _ List.mem_cons_self) ?_), by simp⟩
    intro k v he
    obtain ⟨x, -, h⟩ := List.mem_map.mp he
    cases h
    exact ⟨within_prim _, within_prim _⟩
  · refine List.forall_mem_cons.2 ⟨classes_self_comp _ _ _, List.forall_mem_cons.2 ⟨?_, by simp⟩⟩
    exact classes_in_comp List.mem_cons_self (classes_self_map _ _ _)
  · refine ⟨⟨rfl, ⟨javaTypeName (.map cppInt cppInt), [], [], f10m, .map "int".toList "int".toList⟩, "int".toList, "int".toList,
      ?_, rfl, rfl, rfl, ?_⟩, trivial⟩
    · decide +kernel
    · rw [showableEntries_iff]
      intro k v he
      obtain ⟨x, -, h⟩ := List.mem_map.mp he
      cases h
      exact ⟨⟨rfl, trivial⟩, rfl, trivial⟩

/-- **C75, writer-test-11**: a map from integers to objects, if it is not empty. -/
theorem C75_writer11_partial (m : List (Int × Str)) (hm : m ≠ []) :
    SavedAndShown true (writer11 m)
      (whole [colon mMap (braces (m.map fun e => colon (decimal e.1) (braces [colon mA (quoted e.2)])))]) := by
  have ht : parsedText (objVal (writer11 m))
      = whole [colon mMap (braces (m.map fun e => colon (decimal e.1) (braces [colon mA (quoted e.2)])))] := by
    refine whole_eq _ _ _ _ ?_
    show [colon mMap (shown (.map f11m (entryVals (m.map fun e => Entry.mk (.prim (.int e.1)) (.obj (inner11 e.2))))))] = _
    rw [entryVals_eq, shown, shownEntries_eq, List.map_map, List.map_map]
    rfl
  rw [← ht]
  refine C75_conforming_file (ds := [composite nDSM fDSM [holds mMap (.map cppInt (named nInner)) (mapOf cppInt (named nInner) f11m [])],
    composite nInner fInner [.prim mA false (.string [])], mapClass cppInt (named nInner) f11m]) (presentable_sound (by decide +kernel))
    (conforms_of (within_comp List.mem_cons_self ?_) ?_) ?_
  · simp only [List.forall_mem_cons]
    refine ⟨within_objM _ _ _ (within_map (List.mem_cons_of_mem _ (List.mem_cons_of_mem _ List.mem_cons_self)) ?_), by simp⟩
    intro k v he
    obtain ⟨x, -, h⟩ := List.mem_map.mp he
    cases h
    refine ⟨within_prim _, within_objE (within_comp (List.mem_cons_of_mem _ List.mem_cons_self) ?_)⟩
    simp only [List.forall_mem_cons]
    exact ⟨within_primM .., by simp⟩
  · obtain ⟨x, l, rfl⟩ := List.exists_cons_of_ne_nil hm
    refine List.forall_mem_cons.2 ⟨classes_self_comp _ _ _, List.forall_mem_cons.2 ⟨?_, List.forall_mem_cons.2 ⟨?_, by simp⟩⟩⟩
    · exact classes_in_comp List.mem_cons_self (classes_in_map (o := inner11 x.2) List.mem_cons_self (classes_self_comp _ _ _))
    · exact classes_in_comp List.mem_cons_self (classes_self_map _ _ _)
  · refine ⟨⟨rfl, ⟨javaTypeName (.map cppInt (named nInner)), [], [], f11m, .map "int".toList (javaTypeName (named nInner))⟩, "int".toList,
      javaTypeName (named nInner), ?_, rfl, rfl, rfl, ?_⟩, trivial⟩
    · decide +kernel
    · rw [showableEntries_iff]
      intro k v he
      obtain ⟨x, -, h⟩ := List.mem_map.mp he
      cases h
      exact ⟨⟨rfl, trivial⟩, rfl, trivial, trivial⟩

/-- The text of an `Inner` of writer-test-12. -/
def text12 (x : Str × List Int) : Str := braces [colon mA (quoted x.1), colon mB (brackets (x.2.map decimal))]

private theorem inner12_text (x : Str × List Int) : shown (objVal (inner12 x)) = text12 x := by
  show braces [colon mA _, colon mB (shown (.list f12i (elemVals (x.2.map fun n => Elem.prim (.int n)))))] = _
  rw [ints_text]
  rfl

private theorem inners12_text (f : Str) (xs : List (Str × List Int)) :
    shown (.list f (elemVals (xs.map fun x => Elem.obj (inner12 x)))) = brackets (xs.map text12) := by
  rw [elemVals_eq, shown, shownAll_eq, List.map_map, List.map_map]
  congr 1
  exact List.map_congr_left fun x _ => inner12_text x

def schema12 : List ClassDesc :=
  [composite nDSM fDSM [holds mMap (.map cppInt (.vector (named nInner))) (mapOf cppInt (.vector (named nInner)) f12m [])],
   composite nInner fInner [.prim mA false (.string []), holds mB (.vector cppInt) (vectorOf cppInt f12i [])],
   vectorClass (named nInner) f12v, vectorClass cppInt f12i, mapClass cppInt (.vector (named nInner)) f12m]

/-- **C75, writer-test-12**: a map from integers to lists of objects that hold lists, if one of the lists is not empty. -/
theorem C75_writer12_partial (m : List (Int × List (Str × List Int))) (hm : ∃ e ∈ m, e.2 ≠ []) :
    SavedAndShown true (writer12 m)
      (whole [colon mMap (braces (m.map fun e => colon (decimal e.1) (brackets (e.2.map text12))))]) := by
  have ht : parsedText (objVal (writer12 m))
      = whole [colon mMap (braces (m.map fun e => colon (decimal e.1) (brackets (e.2.map text12))))] := by
    refine whole_eq _ _ _ _ ?_
    show [colon mMap (shown (.map f12m (entryVals (m.map fun e => Entry.mk (.prim (.int e.1))
      (.obj (vectorOf (named nInner) f12v (e.2.map fun x => .obj (inner12 x))))))))] = _
    rw [entryVals_eq, shown, shownEntries_eq, List.map_map, List.map_map]
    congr 3
    refine List.map_congr_left fun e _ => ?_
    exact congrArg (colon (decimal e.1)) (inners12_text f12v e.2)
  rw [← ht]
  refine C75_conforming_file (ds := schema12) (presentable_sound (by decide +kernel))
    (conforms_of (within_comp List.mem_cons_self ?_) ?_) ?_
  · simp only [List.forall_mem_cons]
    refine ⟨within_objM _ _ _ (within_map (by simp [schema12, mapClass]) ?_), by simp⟩
    intro k v he
    obtain ⟨e, -, h⟩ := List.mem_map.mp he
    cases h
    refine ⟨within_prim _, within_objE (within_list (by simp [schema12, vectorClass]) ?_)⟩
    intro y hy
    obtain ⟨x, -, rfl⟩ := List.mem_map.mp hy
    refine within_objE (within_comp (List.mem_cons_of_mem _ List.mem_cons_self) ?_)
    simp only [List.forall_mem_cons]
    exact ⟨within_primM .., within_objM _ _ _ (ints_within (by simp [schema12]) x.2), by simp⟩
  · obtain ⟨e, he, hne⟩ := hm
    obtain ⟨x, l, hx⟩ := List.exists_cons_of_ne_nil hne
    have hin : Entry.mk (.prim (.int e.1)) (.obj (vectorOf (named nInner) f12v (e.2.map fun x => .obj (inner12 x))))
        ∈ m.map fun e => Entry.mk (.prim (.int e.1)) (.obj (vectorOf (named nInner) f12v (e.2.map fun x => .obj (inner12 x)))) :=
      List.mem_map.mpr ⟨e, he, rfl⟩
    have hx' : Elem.obj (inner12 x) ∈ e.2.map fun x => Elem.obj (inner12 x) := by rw [hx]; exact List.mem_cons_self
    refine List.forall_mem_cons.2 ⟨classes_self_comp _ _ _, List.forall_mem_cons.2 ⟨?_, List.forall_mem_cons.2 ⟨?_,
      List.forall_mem_cons.2 ⟨?_, List.forall_mem_cons.2 ⟨?_, by simp⟩⟩⟩⟩⟩
    · exact classes_in_comp List.mem_cons_self (classes_in_map hin (classes_in_list hx' (classes_self_comp _ _ _)))
    · exact classes_in_comp List.mem_cons_self (classes_in_map hin (classes_self_list _ _ _))
    · exact classes_in_comp List.mem_cons_self (classes_in_map hin (classes_in_list hx'
        (classes_in_comp (List.mem_cons_of_mem _ List.mem_cons_self) (classes_self_list _ _ _))))
    · exact classes_in_comp List.mem_cons_self (classes_self_map _ _ _)
  · refine ⟨⟨rfl, ⟨javaTypeName (.map cppInt (.vector (named nInner))), [], [], f12m, .map "int".toList
      (javaTypeName (.vector (named nInner)))⟩, "int".toList, javaTypeName (.vector (named nInner)), ?_, rfl, rfl, rfl, ?_⟩, trivial⟩
    · decide +kernel
    · rw [showableEntries_iff]
      intro k v he
      obtain ⟨e, -, h⟩ := List.mem_map.mp he
      cases h
      refine ⟨⟨rfl, trivial⟩, rfl, ⟨javaTypeName (.vector (named nInner)), [], [], f12v, .list (javaTypeName (named nInner))⟩,
        javaTypeName (named nInner), ?_, rfl, rfl, .inl rfl, ?_⟩
      · decide +kernel
      · rw [showableElems_iff]
        intro y hy
        obtain ⟨x, -, rfl⟩ := List.mem_map.mp hy
        exact ⟨rfl, trivial, ⟨rfl, ints_showable (by decide +kernel) x.2⟩, trivial⟩

/-- **C75, the names.** The properties, classes and fingerprints above are those of the programs. -/
theorem C75_names :
    [mVal, mVal1, mVal2, mVal3, mVal4, mVal5, mVal6, mA, mB, mC, mD, mE, mList, mMap]
      = ["m_val".toList, "m_val1".toList, "m_val2".toList, "m_val3".toList, "m_val4".toList, "m_val5".toList, "m_val6".toList,
       "m_a".toList, "m_b".toList, "m_c".toList, "m_d".toList, "m_e".toList, "m_list".toList, "m_map".toList]
    ∧ [nDSM, nInner, nOuter, nRecursive, nContainsList, nComposite, nCompositeList, nListOfLists, nMapIntInt]
      = ["DeSerialiseMe".toList, "Inner".toList, "Outer".toList, "Recursive".toList, "ContainsList".toList, "Composite".toList,
       "CompositeList".toList, "ListOfLists".toList, "MapIntInt".toList]
    ∧ [fDSM123, fInner_123, fOuter_123, f06, f06v, f07, f07v, f08c, f08v, f08, f09, f09v, f09w, f10, f10m, fInner, fDSM, f11m, f12i, f12v, f12m, fInner123, fOuter123, fDSMe, fIntVector]
      = ["DSM123".toList, "Inner-123".toList, "Outer-123".toList, "Contains-List-123".toList, "vector-of-string".toList,
       "ContainsList-123".toList, "int-vector".toList, "Composite123".toList, "Composite123Vector".toList, "CompositeList123".toList,
       "LOL123".toList, "intList".toList, "ListIntList2".toList, "MapIntInt".toList, "MAP2-int-int".toList, "FP-Inner".toList,
       "FP-DSM".toList, "FP-MapItoInner".toList, "FP-IntVector".toList, "FP-InnerVector".toList, "FP-PANTS".toList, "Inner123".toList,
       "Outer123".toList, "DSMe-123".toList, "IntVector".toList] := by decide +kernel

/-! The values the programs use. -/

example : (writer01 100) = .comp "DeSerialiseMe".toList "DSM123".toList
    [.prim "m_val".toList false (.int 100), .prim "m_val2".toList true (.int 150)] := rfl
example : whole [colon mVal (decimal 100), colon mVal2 (decimal 150)] = "{ Parsed : { m_val : 100, m_val2 : 150 } }".toList := by
  decide +kernel
example : "{ Parsed : ".toList ++ chainText 1 "a".toList [(2, "b".toList)] ++ " }".toList
    = "{ Parsed : { m_a : 1, m_b : \"a\", m_c : { m_a : 2, m_b : \"b\", m_c : <<NULL>> } } }".toList := by decide +kernel
example : whole [colon mList (brackets (["goodbye".toList, "cruel".toList, "world".toList].map quoted))]
    = "{ Parsed : { m_list : [ \"goodbye\", \"cruel\", \"world\" ] } }".toList := by decide +kernel
example : whole [colon mMap (braces ([((1 : Int), (2 : Int)), (3, 4)].map fun e => colon (decimal e.1) (decimal e.2)))]
    = "{ Parsed : { m_map : { 1 : 2, 3 : 4 } } }".toList := by decide +kernel
example : whole [colon mMap (braces ([((1 : Int), [("x".toList, [(7 : Int), 8])])].map fun e =>
      colon (decimal e.1) (brackets (e.2.map text12))))]
    = "{ Parsed : { m_map : { 1 : [ { m_a : \"x\", m_b : [ 7, 8 ] } ] } } }".toList := by decide +kernel

/-- **C75 is violated** by writer-test-04, as it is run: the inspector has no text for a `float` (with both orders of evaluation). -/
theorem C75_writer04_violated : ∀ lf : Bool, (inspect lf (written (writer04 101 "butts".toList true 0x4024333333333333 0x3f828f5c))).1
    = .throw "This is very bad" := by decide +kernel

/-- **C75 is violated** by containers that are empty, or contain nothing but empty ones: the schema then lacks the classes of what they
could contain. -/
theorem C75_empty_violated : ∀ lf : Bool, (inspect lf (written (writer08 []))).1 = .throw "Missing type in serialisers map"
    ∧ (inspect lf (written (writer09 []))).1 = .throw "Missing type in serialisers map"
    ∧ (inspect lf (written (writer11 []))).1 = .throw "Missing type in serialisers map"
    ∧ (inspect lf (written (writer12 []))).1 = .throw "Missing type in serialisers map"
    ∧ (inspect lf (written (writer12 [(1, [])]))).1 = .throw "Missing type in serialisers map" := by decide +kernel

/-- **C75 is violated** by maps, as it is run, where the compiler evaluates arguments from right to left: keys and values are exchanged. -/
theorem C75_maps_violated : (inspect false (written (writer10 [(1, 2), (3, 4)]))).1
    = .ok "{ Parsed : { m_map : { 2 : 1, 4 : 3 } } }".toList := by decide +kernel

/-! ### C76: the programs that read -/

/-- The object is serialised; reading the blob gives these values, and so does reading a file it was saved to, in any encoding. -/
def ReadBack (p : PropShape) (o : Obj) (v : Res RVal) : Prop :=
  ∃ n, serialise o = .ok [n] ∧ (deserialise p (Cursor.root n)).1 = v ∧
    ∀ bytes, Encodes bytes n → bytes.length < 2 ^ 62 → ∀ path, readFile (holding (CordaBytes.ofBlob bytes).toFile) path p = v

/-- A string as it comes back. -/
def upToNul (s : Str) : Str := s.takeWhile (· ≠ '\x00')

private theorem readBack (s : Shape) (o : Obj) (h : Matches s o) (v : RVal) (hv : valueWith received o = some v)
    (hn : NoCharPointers o := by
      simp [NoCharPointers, NoCharPointersMembers, NoCharPointersMember, Prim.type, classOf, reader01Obj, reader02Obj, reader03Obj, reader04Obj,
        reader05Obj]) :
    ReadBack (.obj false s) o (.ok v) := by
  obtain ⟨n, h1, h2⟩ := C33_what_comes_back s o false h hn v hv
  obtain ⟨n', h3, h4⟩ := C72_round_trip s o false h hn v hv
  have : n' = n := by rw [h1] at h3; simpa using h3.symm
  subst this
  exact ⟨_, h1, h2, h4⟩

private theorem matches_comp {n f : Str} {ps : List PropShape} {ms : List Member} (h : MatchesAll ps ms) :
    Matches (.mk ps) (.comp n f ms) := ⟨_, rfl, h⟩
private theorem matchesAll_nil : MatchesAll [] [] := rfl
private theorem matchesAll_prim {n : Str} {ptr : Bool} {v : Prim} {ps : List PropShape} {ms : List Member} (h : MatchesAll ps ms) :
    MatchesAll (.prim ptr v.type :: ps) (.prim n ptr v :: ms) := ⟨_, _, rfl, rfl, h⟩
private theorem matchesAll_obj {n t : Str} {ptr : Bool} {o : Obj} {s : Shape} {ps : List PropShape} {ms : List Member} (ho : Matches s o)
    (h : MatchesAll ps ms) : MatchesAll (.obj ptr s :: ps) (.obj n t ptr o :: ms) := ⟨_, _, rfl, ⟨_, rfl, ho⟩, h⟩

/-- **C76, reader-test-01.** -/
theorem C76_reader01 (val val2 : Int) :
    ReadBack (.obj false reader01) (reader01Obj val val2) (.ok (.obj [.prim (.int val), .prim (.int val2)])) :=
  readBack _ _ (matches_comp (matchesAll_prim (matchesAll_prim matchesAll_nil))) _ rfl

/-- **C76, reader-test-01 on what writer-test-01 writes**: the two programs have the same class. -/
theorem C76_reader01_writer01 (val : Int) :
    ReadBack (.obj false reader01) (writer01 val) (.ok (.obj [.prim (.int val), .prim (.int (val + 50))])) :=
  C76_reader01 val (val + 50)

/-- **C76, reader-test-02.** -/
theorem C76_reader02 (val : Int) : ReadBack (.obj false reader02) (reader02Obj val) (.ok (.obj [.obj [.prim (.int val)]])) :=
  readBack _ _ (matches_comp (matchesAll_obj (matches_comp (matchesAll_prim matchesAll_nil)) matchesAll_nil)) _ rfl

/-- **C76, reader-test-03.** -/
theorem C76_reader03 (a b : Int × Int) : ReadBack (.obj false reader03) (reader03Obj a b)
    (.ok (.obj [.obj [.prim (.int a.1), .prim (.int a.2)], .obj [.prim (.int b.1), .prim (.int b.2)]])) :=
  readBack _ _ (matches_comp (matchesAll_obj (matches_comp (matchesAll_prim (matchesAll_prim matchesAll_nil)))
    (matchesAll_obj (matches_comp (matchesAll_prim (matchesAll_prim matchesAll_nil))) matchesAll_nil))) _ rfl

/-- **C76, reader-test-04.** -/
theorem C76_reader04 (a b c d e f : Int) : ReadBack (.obj false reader04) (reader04Obj a b c d e f)
    (.ok (.obj [.obj [.prim (.int a), .prim (.int b), .prim (.int c), .prim (.int d), .prim (.int e), .prim (.int f)]])) :=
  readBack _ _ (matches_comp (matchesAll_obj (matches_comp (matchesAll_prim (matchesAll_prim (matchesAll_prim (matchesAll_prim (matchesAll_prim
    (matchesAll_prim matchesAll_nil))))))) matchesAll_nil)) _ rfl

/-- **C76, reader-test-05.** The string comes back up to its first NUL. -/
theorem C76_reader05 (a : Int) (b : Str) (c : Nat) (d : Int) (e : Bool) (f : Nat) :
    ReadBack (.obj false reader05) (reader05Obj a b c d e f) (.ok (.obj [.obj [.prim (.int a), .prim (.string (upToNul b)),
      .prim (.double c), .prim (.long d), .prim (.bool e), .prim (.float f)]])) :=
  readBack _ _ (matches_comp (matchesAll_obj (matches_comp (matchesAll_prim (matchesAll_prim (matchesAll_prim (matchesAll_prim (matchesAll_prim
    (matchesAll_prim matchesAll_nil))))))) matchesAll_nil)) _ rfl

example : upToNul "Hello World".toList = "Hello World".toList := by decide +kernel

/-- **C76 is violated** by reader-test-06, for every list, also the one it is run with: the vector is never read. -/
theorem C76_reader06_violated (l : List Int) :
    ∃ n, serialise (reader06Obj l) = .ok [n] ∧ (deserialise (.obj false reader06) (Cursor.root n)).1 = .throw "Expected a List" := by
  obtain ⟨ns, hs⟩ := C30_succeeds (reader06Obj l) (by
    have hc : Conforms [composite nDSM fDSMe [holds mVal (.vector cppInt) (vectorOf cppInt fIntVector [])], vectorClass cppInt fIntVector]
        (reader06Obj l) := by
      refine conforms_of (within_comp List.mem_cons_self ?_) ?_
      · simp only [List.forall_mem_cons]
        exact ⟨within_objM _ _ _ (ints_within (List.mem_cons_of_mem _ List.mem_cons_self) l), by simp⟩
      · refine List.forall_mem_cons.2 ⟨classes_self_comp _ _ _, List.forall_mem_cons.2 ⟨?_, by simp⟩⟩
        exact classes_in_comp List.mem_cons_self (classes_self_list _ _ _)
    exact (conforms_describes hc ((inAlphabet_iff _).1 (by decide +kernel))).2.1) (by
    simp only [reader06Obj, classOf, holds, vectorOf, NoCharPointers, NoCharPointersMembers, NoCharPointersMember, and_true]
    induction l with
    | nil => trivial
    | cons x l ih => exact ⟨trivial, ih⟩)
  obtain ⟨a, rfl, h⟩ := C54_vectors_violated [] [] _ _ _ _ _ _ [] _ [] false false rfl [] rfl ns hs
  exact ⟨a, hs, h⟩

end Corda.Props

#print axioms Corda.Props.C75_conforming
#print axioms Corda.Props.C75_conforming_file
#print axioms Corda.Props.C75_writer01
#print axioms Corda.Props.C75_writer02
#print axioms Corda.Props.C75_writer03
#print axioms Corda.Props.C75_writer05
#print axioms Corda.Props.C75_writer06
#print axioms Corda.Props.C75_writer07
#print axioms Corda.Props.C75_writer08_partial
#print axioms Corda.Props.C75_writer09_partial
#print axioms Corda.Props.C75_writer10_partial
#print axioms Corda.Props.C75_writer11_partial
#print axioms Corda.Props.C75_writer12_partial
#print axioms Corda.Props.C75_names
#print axioms Corda.Props.C75_writer04_violated
#print axioms Corda.Props.C75_empty_violated
#print axioms Corda.Props.C75_maps_violated
#print axioms Corda.Props.C76_reader01
#print axioms Corda.Props.C76_reader01_writer01
#print axioms Corda.Props.C76_reader02
#print axioms Corda.Props.C76_reader03
#print axioms Corda.Props.C76_reader04
#print axioms Corda.Props.C76_reader05
#print axioms Corda.Props.C76_reader06_violated
