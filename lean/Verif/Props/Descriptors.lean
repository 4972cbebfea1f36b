import Verif.Lemmas.Tree
import Verif.Props.SchemaTypes
import Verif.Spec.Descriptors

/-
C19-C26: schema elements survive being written and read back; descriptors are validated; reading leaves the data and
the cursor alone.
-/

namespace Corda.Props
open Corda Corda.Prog Corda.Spec

theorem descId_eq : ∀ k ≤ 22, descId k = cordaId k := by decide

/-! ### Evaluation of one described element -/

private theorem validated_eval {p : Prog Element} (hp : Scoped p) (k : Nat) (v : Atom) (x : Node) (xs rest : List Node)
    (pr : List Node) (u : List (List Node × Atom × List Node)) (ks : List Node) :
    ((do validateAndNext k; autoEnter p) ⟨pr, some (.mk (.ulong (descId k)) ks), .mk v (x :: xs) :: rest, u⟩).1
      = (p ⟨[], some x, xs, []⟩).1 := by
  have h1 : validateAndNext k ⟨pr, some (.mk (.ulong (descId k)) ks), .mk v (x :: xs) :: rest, u⟩
      = (.ok (), ⟨.mk (.ulong (descId k)) ks :: pr, some (.mk v (x :: xs)), rest, u⟩) := by
    simp [validateAndNext, bind_def, attest, Cursor.type, Node.val, Atom.type, look, getUlong, Cursor.val, next_cons,
      pure_def]
  rw [bind_of_ok h1, autoEnter_eq hp rfl]
  have := congrArg Prod.fst ((hp ⟨[], some x, xs, []⟩).2 ((.mk (.ulong (descId k)) ks :: pr, v, rest) :: u))
  exact this

private theorem read_element {fuel k : Nat} (hk : k ≤ 22) (parts : List Node) :
    readNode (fuel + 1) (element k parts)
      = (build (dispatch fuel) (descId k) ⟨[], some (.mk (.ulong (descId k)) []), [.mk .list parts], []⟩).1 := by
  have hs := scoped_dispatchBody (scoped_dispatch fuel)
  unfold readNode
  rw [dispatch]
  have h1 : attestDescribed (Cursor.root (element k parts)) = (.ok (), Cursor.root (element k parts)) := rfl
  rw [bind_of_ok h1, autoEnter_eq hs rfl]
  have h2 : (if false = true then (Cursor.root (element k parts)).enter.next.2.next.2
      else (Cursor.root (element k parts)).enter.next.2)
      = Cursor.under ⟨[], some (.mk (.ulong (descId k)) []), [.mk .list parts], []⟩ [([], .described, [])] := by
    rw [descId_eq k hk]; rfl
  simp only [h2, (hs _).2]
  rfl

private theorem getString_str (b : Bool) (s : Str) (p r : List Node) (u : List (List Node × Atom × List Node)) :
    getString b ⟨p, some (str s), r, u⟩ = (.ok s, ⟨p, some (str s), r, u⟩) := rfl

private theorem getBoolean_bool (s : Bool) (p r : List Node) (u : List (List Node × Atom × List Node)) :
    getBoolean ⟨p, some (.mk (.bool s) []), r, u⟩ = (.ok s, ⟨p, some (.mk (.bool s) []), r, u⟩) := rfl

private theorem stringList_strList (ss : List Str) (p r : List Node) (u : List (List Node × Atom × List Node)) :
    stringList ⟨p, some (strList ss), r, u⟩ = (.ok ss, ⟨p, some (strList ss), r, u⟩) := by
  rw [stringList_at rfl]
  exact congrArg (·, _) (mapRes_strings ss)

private theorem read_field (fuel : Nat) (name type : Str) (req : List Str) (def_ label : Str) (m m' : Bool) :
    readNode (fuel + 1) (fieldTree name type req def_ label m m')
      = (Field.make name type req def_ label m m').bind (fun f => .ok (.field f)) := by
  unfold fieldTree
  rw [read_element (by decide)]
  have : build (dispatch fuel) (descId 4) = fieldBuild := rfl
  rw [this]
  unfold fieldBuild
  rw [validated_eval scoped_fieldBody]
  unfold fieldBody
  simp only [bind_def, next_cons, getString_str, getBoolean_bool, stringList_strList, lift, pure_def]
  cases Field.make name type req def_ label m m' <;> rfl

private theorem read_object (fuel : Nat) (fp : Str) :
    readNode (fuel + 1) (objectTree fp) = .ok (.descriptor fp) := by
  unfold objectTree
  rw [read_element (by decide)]
  have : build (dispatch fuel) (descId 3) = objectBuild := rfl
  rw [this]
  unfold objectBuild
  rw [validated_eval (scoped_bind scoped_getSymbol fun _ => scoped_pure _)]
  rfl

private theorem dispatch_object (fuel : Nat) (fp : Str) (p r : List Node) (u : List (List Node × Atom × List Node)) :
    dispatch (fuel + 1) ⟨p, some (objectTree fp), r, u⟩ = (.ok (.descriptor fp), ⟨p, some (objectTree fp), r, u⟩) := by
  rw [dispatch_at _ rfl, read_object]

/-- The seven parts of a field description. -/
structure FieldDesc where
  name : Str
  type : Str
  requires : List Str
  default : Str
  label : Str
  mandatory : Bool
  multiple : Bool

def FieldDesc.tree (d : FieldDesc) : Node :=
  fieldTree d.name d.type d.requires d.default d.label d.mandatory d.multiple

/-- Constructing the field directly. -/
def FieldDesc.make (d : FieldDesc) : Res Field :=
  Field.make d.name d.type d.requires d.default d.label d.mandatory d.multiple

/-- Doing a list of constructions in order; the first failure counts. -/
def inOrder {α : Type} : List (Res α) → Res (List α)
  | [] => .ok []
  | r :: rs => r.bind fun a => (inOrder rs).bind fun as => .ok (a :: as)

theorem inOrder_ok {α : Type} (as : List α) : inOrder (as.map Res.ok) = .ok as := by
  induction as with
  | nil => rfl
  | cons a as ih => simp [inOrder, ih]

private theorem listEnter_map {α : Type} {body : Prog α} {g : Node → Res α} (hs : ScopedOn body)
    (hb : ∀ c n, c.cur = some n → body c = (g n, c)) (p r : List Node) (v : Atom) (ks : List Node)
    (u : List (List Node × Atom × List Node)) :
    autoListEnter (fun _ => whileNext body) false ⟨p, some (.mk v ks), r, u⟩
      = (mapRes g ks, ⟨p, some (.mk v ks), r, u⟩) := by
  rw [autoListEnter_eq (fun _ => scoped_whileNext hs) rfl]
  simp only [Bool.false_eq_true, if_false]
  rw [whileNext_map hb]
  rfl

private theorem bind_at {fuel : Nat} {α : Type} {as : Element → Prog α} {g : Element → Res α}
    (has : ∀ e c, as e c = (g e, c)) (c : Cursor) (n : Node) (h : c.cur = some n) :
    (do let e ← dispatch fuel; as e) c = ((readNode fuel n).bind g, c) := by
  rw [bind_def, dispatch_at _ h]
  cases readNode fuel n <;> simp [has]

/-- What `static_cast<Field *>` gives. -/
private def toField : Element → Res Field
  | .field f => .ok f
  | .null => .ub "null element"
  | _ => .ub "wrong element class"

private theorem asField_eq (e : Element) (c : Cursor) : asField e c = (toField e, c) := by cases e <;> rfl

private theorem mapRes_fields (fuel : Nat) (ds : List FieldDesc) :
    mapRes (fun n => (readNode (fuel + 1) n).bind toField) (ds.map FieldDesc.tree)
      = inOrder (ds.map FieldDesc.make) := by
  induction ds with
  | nil => rfl
  | cons d ds ih =>
    simp only [List.map_cons, mapRes, inOrder, ih, FieldDesc.tree, read_field, FieldDesc.make]
    cases Field.make d.name d.type d.requires d.default d.label d.mandatory d.multiple <;> rfl

private theorem read_composite (fuel : Nat) (name label : Str) (provides : List Str) (fp : Str)
    (ds : List FieldDesc) :
    readNode (fuel + 2) (compositeTree name label provides fp (ds.map FieldDesc.tree))
      = (inOrder (ds.map FieldDesc.make)).bind
          (fun fs => .ok (.notation (.comp ⟨name, label, provides, fp, fs⟩))) := by
  unfold compositeTree
  rw [read_element (by decide)]
  have : build (dispatch (fuel + 1)) (descId 5) = compositeBuild (dispatch (fuel + 1)) := rfl
  rw [this]
  unfold compositeBuild
  rw [validated_eval (scoped_compositeBody (scoped_dispatch _))]
  unfold compositeBody
  have hs : ScopedOn (do let e ← dispatch (fuel + 1); asField e) :=
    scopedOn_bind (scoped_dispatch _).on fun e => (scoped_asField e).on
  simp only [bind_def, next_cons, getString_str, stringList_strList, dispatch_object, asDescriptor, pure_def]
  have := fun p r v ks u => listEnter_map hs (bind_at asField_eq) p r v ks u
  simp only [this, mapRes_fields]
  cases inOrder (ds.map FieldDesc.make) <;> rfl

private def toChoice : Element → Res Str
  | .choice f => .ok f
  | .null => .ub "null element"
  | _ => .ub "wrong element class"

private theorem asChoice_eq (e : Element) (c : Cursor) : asChoice e c = (toChoice e, c) := by cases e <;> rfl

private theorem read_choice (fuel : Nat) (s : Str) (more : List Node) :
    readNode (fuel + 1) (choiceTree s more) = .ok (.choice s) := by
  unfold choiceTree
  rw [read_element (by decide)]
  have : build (dispatch fuel) (descId 7) = choiceBuild := rfl
  rw [this]
  unfold choiceBuild
  rw [validated_eval (scoped_bind (scoped_getString _) fun _ => scoped_pure _)]
  rfl

private theorem mapRes_choices (fuel : Nat) (cs : List (Str × List Node)) :
    mapRes (fun n => (readNode (fuel + 1) n).bind toChoice) (cs.map fun c => choiceTree c.1 c.2)
      = .ok (cs.map Prod.fst) := by
  induction cs with
  | nil => rfl
  | cons d ds ih => simp only [List.map_cons, mapRes, ih, read_choice]; rfl

private theorem readString_str (b : Bool) (s : Str) (p r : List Node) (n : Node)
    (u : List (List Node × Atom × List Node)) :
    readString b ⟨p, some (str s), n :: r, u⟩ = (.ok s, ⟨str s :: p, some n, r, u⟩) := rfl

theorem read_restricted (fuel : Nat) (name label : Str) (provides : List Str) (source fp : Str)
    (cs : List (Str × List Node)) :
    readNode (fuel + 2) (restrictedTree name label provides source fp (cs.map fun c => choiceTree c.1 c.2))
      = (Restricted.make fp (makePrim name) label provides source (cs.map Prod.fst)).bind
          (fun r => .ok (.notation (.restr r))) := by
  unfold restrictedTree
  rw [read_element (by decide)]
  have : build (dispatch (fuel + 1)) (descId 6) = restrictedBuild (dispatch (fuel + 1)) := rfl
  rw [this]
  unfold restrictedBuild
  rw [validated_eval (scoped_restrictedBody (scoped_dispatch _))]
  unfold restrictedBody
  have hs : ScopedOn (do let e ← dispatch (fuel + 1); asChoice e) :=
    scopedOn_bind (scoped_dispatch _).on fun e => (scoped_asChoice e).on
  simp only [bind_def, next_cons, readString_str, stringList_strList, dispatch_object, asDescriptor, pure_def, lift]
  have := fun p r v ks u => listEnter_map hs (bind_at asChoice_eq) p r v ks u
  simp only [this, mapRes_choices]
  cases Restricted.make fp (makePrim name) label provides source (cs.map Prod.fst) <;> rfl

/-! ### What the writers produce -/

theorem fieldProton_eq (d : FieldDesc) :
    fieldProton d.name d.type d.requires d.default d.label d.mandatory d.multiple = [d.tree] := by
  unfold fieldProton
  have h4 : descId 4 = cordaId 4 := by decide
  exact (made_of_writes (writes_node _ (writes_put_bind _ (writes_node _
    (writes_put_bind _ (writes_put_bind _ (writes_node_bind _ (writes_putStrings d.requires)
      (writes_put_bind _ (writes_put_bind _ (writes_put_bind _ (writes_put _)))))))))))

private theorem writes_putObject (fp : Str) : Writes (putObject fp) [objectTree fp] :=
  writes_node _ (writes_put_bind _ (writes_node _ (writes_put_bind _ (writes_put _))))

theorem compositeProton_eq (name : Str) (provides : List Str) (fp : Str) (fields : List Node) (label : Str) :
    compositeProton name provides fp (fields.map fun n => [n]) label
      = [compositeTree name label provides fp fields] := by
  unfold compositeProton
  have hf : (fields.map fun n => [n]).flatten = fields := by
    induction fields with
    | nil => rfl
    | cons n ns ih => simp [ih]
  have := writes_appendAll (fields.map fun n => [n])
  rw [hf] at this
  exact (made_of_writes (writes_node _ (writes_put_bind _ (writes_node _
    (writes_put_bind _ (writes_put_bind _ (writes_node_bind _ (writes_putStrings provides)
      (writes_bind (writes_putObject fp) (writes_node _ this)))))))))

theorem restrictedProton_eq (name source fp : Str) :
    restrictedProton name source fp = [restrictedTree name [] [] source fp []] := by
  unfold restrictedProton
  exact (made_of_writes (writes_node _ (writes_put_bind _ (writes_node _
    (writes_put_bind _ (writes_put_bind _ (writes_node_bind _ writes_nil
      (writes_put_bind _ (writes_bind (writes_putObject fp) (writes_node _ writes_nil)))))))))) 

theorem schemaProton_eq (types : List Node) : schemaProton (types.map fun n => [n]) = [schemaTree types] := by
  unfold schemaProton
  have hf : (types.map fun n => [n]).flatten = types := by
    induction types with
    | nil => rfl
    | cons n ns ih => simp [ih]
  have := writes_appendAll (types.map fun n => [n])
  rw [hf] at this
  exact made_of_writes (writes_node _ (writes_put_bind _ (writes_node _ (writes_node _ this))))

theorem envelopeProton_eq (payload schema : Node) :
    envelopeProton [payload] [schema] = [envelopeTree payload schema (.mk .null [])] := by
  unfold envelopeProton
  exact made_of_writes (writes_node _ (writes_put_bind _ (writes_node _
    (writes_bind (writes_append _) (writes_bind (writes_append _) (writes_put _))))))

/-! ### C19-C22: round trips -/

/-- **C19.** Writing a field description gives one AMQP value, the tree Corda prescribes.  Reading it back, wherever
it stands in a larger tree, gives exactly the outcome of constructing that field directly, and leaves the cursor on
it. -/
theorem C19_field_round_trip (d : FieldDesc) (fuel : Nat) (c : Cursor) (n : Node)
    (hw : fieldProton d.name d.type d.requires d.default d.label d.mandatory d.multiple = [n])
    (hc : c.cur = some n) :
    dispatch (fuel + 1) c = (d.make.bind (fun f => .ok (.field f)), c) := by
  rw [fieldProton_eq] at hw
  simp only [List.cons.injEq, and_true] at hw
  subst hw
  rw [dispatch_at _ hc]
  exact congrArg (·, c) (read_field fuel _ _ _ _ _ _ _)

theorem C19_field_written (d : FieldDesc) :
    fieldProton d.name d.type d.requires d.default d.label d.mandatory d.multiple = [d.tree] := fieldProton_eq d

example : (dispatch 1 (Cursor.root (FieldDesc.tree ⟨"a".toList, "int".toList, [], [], [], true, false⟩))).1
    = .ok (.field ⟨.primitive, "a".toList, "int".toList, [], [], [], true, false, []⟩) := by decide

/-- **C20.** Writing a composite type with any number of fields gives one AMQP value; reading it back gives the
composite with the same name, label, provides and fingerprint whose fields are, in order, those constructed
directly (or fails as the first field that cannot be constructed). -/
theorem C20_composite_round_trip (name label : Str) (provides : List Str) (fp : Str) (ds : List FieldDesc)
    (fuel : Nat) (c : Cursor) (n : Node)
    (hw : compositeProton name provides fp
      (ds.map fun d => fieldProton d.name d.type d.requires d.default d.label d.mandatory d.multiple) label = [n])
    (hc : c.cur = some n) :
    dispatch (fuel + 2) c = ((inOrder (ds.map FieldDesc.make)).bind
      (fun fs => .ok (.notation (.comp ⟨name, label, provides, fp, fs⟩))), c) := by
  have : (ds.map fun d => fieldProton d.name d.type d.requires d.default d.label d.mandatory d.multiple)
      = (ds.map FieldDesc.tree).map fun n => [n] := by
    rw [List.map_map]
    exact List.map_congr_left fun d _ => fieldProton_eq d
  rw [this, compositeProton_eq] at hw
  simp only [List.cons.injEq, and_true] at hw
  subst hw
  rw [dispatch_at _ hc, read_composite]

/-- **C20, in words**: when every field can be constructed, the composite is read back complete and in order. -/
theorem C20_composite_fields (name label : Str) (provides : List Str) (fp : Str) (ds : List FieldDesc)
    (fs : List Field) (hf : ds.map FieldDesc.make = fs.map Res.ok) (fuel : Nat) :
    readNode (fuel + 2) (compositeTree name label provides fp (ds.map FieldDesc.tree))
      = .ok (.notation (.comp ⟨name, label, provides, fp, fs⟩)) := by
  rw [read_composite, hf, inOrder_ok]
  rfl

example : readNode 2 (compositeTree "C".toList [] ["I".toList] "fp".toList
      [FieldDesc.tree ⟨"a".toList, "int".toList, [], [], [], true, false⟩,
       FieldDesc.tree ⟨"b".toList, "D".toList, [], [], [], false, false⟩])
    = .ok (.notation (.comp ⟨"C".toList, [], ["I".toList], "fp".toList,
        [⟨.primitive, "a".toList, "int".toList, [], [], [], true, false, []⟩,
         ⟨.composite, "b".toList, "D".toList, [], [], [], false, false, []⟩]⟩)) :=
  C20_composite_fields _ _ _ _ [⟨"a".toList, "int".toList, [], [], [], true, false⟩,
    ⟨"b".toList, "D".toList, [], [], [], false, false⟩] _ (by decide) 0

/-- **C21.** Writing a list or map type gives one AMQP value; reading it back gives what constructing the type
directly with the unboxed name gives. -/
theorem C21_restricted_round_trip (name source fp : Str) (fuel : Nat) (c : Cursor) (n : Node)
    (hw : restrictedProton name source fp = [n]) (hc : c.cur = some n) :
    dispatch (fuel + 2) c = ((Restricted.make fp (makePrim name) [] [] source []).bind
      (fun r => .ok (.notation (.restr r))), c) := by
  rw [restrictedProton_eq] at hw
  simp only [List.cons.injEq, and_true] at hw
  subst hw
  rw [dispatch_at _ hc]
  exact congrArg (·, c) (read_restricted fuel _ _ _ _ _ [])

/-- **C21, in words**: if reading succeeds, the type has the unboxed name, the fingerprint, no label and no provides,
and its kind is what the source says. -/
theorem C21_restricted_content (name source fp : Str) (fuel : Nat) (e : Element)
    (h : readNode (fuel + 2) (restrictedTree name [] [] source fp []) = .ok e) :
    ∃ r : Restricted, e = .notation (.restr r) ∧ r.name = makePrim name ∧ r.descriptor = fp ∧ r.label = []
      ∧ r.provides = []
      ∧ ((source = "list".toList ∧ ∃ x, r.kind = .list x ∨ r.kind = .array x)
        ∨ (source = "map".toList ∧ ∃ k v, r.kind = .map k v)) := by
  have h2 := read_restricted fuel name [] [] source fp []
  simp only [List.map_nil] at h2
  rw [h2, Res.bind_eq_ok] at h
  obtain ⟨r, hr, he⟩ := h
  refine ⟨r, by simpa using he.symm, ?_⟩
  unfold Restricted.make at hr
  split at hr
  · rename_i hs
    simp only [if_true, Res.bind_eq, Res.bind_eq_ok] at hr
    obtain ⟨arr, -, hr⟩ := hr
    split at hr
    · simp only [Res.pure_eq, Res.ok.injEq] at hr
      subst hr
      exact ⟨rfl, rfl, rfl, rfl, .inl ⟨hs, _, .inr rfl⟩⟩
    · simp only [Res.bind_eq_ok, Res.pure_eq, Res.ok.injEq] at hr
      obtain ⟨v, -, hr⟩ := hr
      subst hr
      exact ⟨rfl, rfl, rfl, rfl, .inl ⟨hs, _, .inl rfl⟩⟩
  · split at hr
    · rename_i hs
      simp only [Res.bind_eq, Res.bind_eq_ok, Res.pure_eq, Res.ok.injEq] at hr
      obtain ⟨v, -, hr⟩ := hr
      subst hr
      exact ⟨rfl, rfl, rfl, rfl, .inr ⟨hs, _, _, rfl⟩⟩
    · simp at hr

/-- **C21 for enumerations** as Corda writes them: the constants are read in order. -/
theorem C21_enum_read (name label : Str) (provides : List Str) (fp : Str) (cs : List (Str × List Node)) (hcs : cs ≠ [])
    (fuel : Nat) :
    readNode (fuel + 2) (restrictedTree name label provides "list".toList fp (cs.map fun c => choiceTree c.1 c.2))
      = .ok (.notation (.restr ⟨makePrim name, label, provides, fp, .enum (cs.map Prod.fst)⟩)) := by
  rw [read_restricted]
  have : cs.map Prod.fst ≠ [] := by simpa using hcs
  simp only [Restricted.make, if_true, this, if_false]
  rfl

example : readNode 2 (restrictedTree "java.util.List<java.lang.Integer>".toList [] [] "list".toList "fp".toList [])
    = .ok (.notation (.restr ⟨"java.util.List<int>".toList, [], [], "fp".toList, .list "int".toList⟩)) := by
  decide +kernel

/-- **C21, boxed names.** In the names of lists, arrays and maps of boxed types all eight boxed types are replaced by their primitives. -/
theorem C21_boxed : ∀ p ∈ Spec.boxed,
    readNode 2 (restrictedTree ("java.util.List<".toList ++ p.1.toList ++ ">".toList) [] [] "list".toList "fp".toList [])
      = .ok (.notation (.restr ⟨"java.util.List<".toList ++ p.2.toList ++ ">".toList, [], [], "fp".toList, .list p.2.toList⟩))
    ∧ readNode 2 (restrictedTree (p.1.toList ++ "[]".toList) [] [] "list".toList "fp".toList [])
      = .ok (.notation (.restr ⟨p.2.toList ++ "[]".toList, [], [], "fp".toList, .array p.2.toList⟩))
    ∧ readNode 2 (restrictedTree ("java.util.Map<".toList ++ p.1.toList ++ ", ".toList ++ p.1.toList ++ ">".toList) [] [] "map".toList "fp".toList [])
      = .ok (.notation (.restr ⟨"java.util.Map<".toList ++ p.2.toList ++ ", ".toList ++ p.2.toList ++ ">".toList, [], [], "fp".toList,
          .map p.2.toList p.2.toList⟩)) := by
  decide +kernel

/-- A type description of a schema as the writer makes them. -/
inductive TypeDesc where
  | comp (name label : Str) (provides : List Str) (fp : Str) (fields : List FieldDesc)
  | restr (name source fp : Str)

/-- What the writer puts into the schema. -/
def TypeDesc.proton : TypeDesc → List Node
  | .comp name label provides fp ds => compositeProton name provides fp
      (ds.map fun d => fieldProton d.name d.type d.requires d.default d.label d.mandatory d.multiple) label
  | .restr name source fp => restrictedProton name source fp

/-- Constructing the type directly. -/
def TypeDesc.make : TypeDesc → Res TypeNotation
  | .comp name label provides fp ds =>
    (inOrder (ds.map FieldDesc.make)).bind (fun fs => .ok (.comp ⟨name, label, provides, fp, fs⟩))
  | .restr name source fp => (Restricted.make fp (makePrim name) [] [] source []).bind (fun r => .ok (.restr r))

def TypeDesc.tree : TypeDesc → Node
  | .comp name label provides fp ds => compositeTree name label provides fp (ds.map FieldDesc.tree)
  | .restr name source fp => restrictedTree name [] [] source fp []

theorem TypeDesc.proton_eq (d : TypeDesc) : d.proton = [d.tree] := by
  cases d with
  | comp name label provides fp ds =>
    have : (ds.map fun d => fieldProton d.name d.type d.requires d.default d.label d.mandatory d.multiple)
        = (ds.map FieldDesc.tree).map fun n => [n] := by
      rw [List.map_map]
      exact List.map_congr_left fun d _ => fieldProton_eq d
    simp only [TypeDesc.proton, this, compositeProton_eq, TypeDesc.tree]
  | restr name source fp => exact restrictedProton_eq name source fp

private theorem read_type (fuel : Nat) (d : TypeDesc) :
    readNode (fuel + 2) d.tree = d.make.bind (fun t => .ok (.notation t)) := by
  cases d with
  | comp name label provides fp ds =>
    simp only [TypeDesc.tree, read_composite, TypeDesc.make]
    cases inOrder (ds.map FieldDesc.make) <;> rfl
  | restr name source fp =>
    have := read_restricted fuel name [] [] source fp []
    simp only [List.map_nil] at this
    simp only [TypeDesc.tree, this, TypeDesc.make]
    cases Restricted.make fp (makePrim name) [] [] source [] <;> rfl

private def toNotation : Element → Res TypeNotation
  | .notation t => .ok t
  | .null => .ub "null element"
  | _ => .ub "wrong element class"

private theorem asNotation_eq (e : Element) (c : Cursor) : asNotation e c = (toNotation e, c) := by cases e <;> rfl

private def stepOf (fuel : Nat) (ls : List (List TypeNotation)) (n : Node) : Res (List (List TypeNotation)) :=
  ((readNode fuel n).bind toNotation).bind (fun t => insertR TypeNotation.dependsOn ls t)

private theorem schemaStep_at (fuel : Nat) (ls : List (List TypeNotation)) (c : Cursor) (n : Node)
    (h : c.cur = some n) : schemaStep (dispatch fuel) ls c = (stepOf fuel ls n, c) := by
  unfold schemaStep stepOf
  rw [bind_def, dispatch_at _ h]
  cases readNode fuel n with
  | throw m => rfl
  | ub m => rfl
  | ok e =>
    simp only [bind_def, asNotation_eq, Res.bind]
    cases toNotation e <;> rfl

private theorem schemaLevel_at (fuel : Nat) (ls : List (List TypeNotation)) (c : Cursor) (n : Node)
    (h : c.cur = some n) :
    autoListEnter (fun _ => foldNext (schemaStep (dispatch fuel)) ls) false c = (foldRes (stepOf fuel) ls n.kids, c) := by
  rw [autoListEnter_eq (fun _ => scoped_foldNext (fun ls => scopedOn_schemaStep (scoped_dispatch _) ls) ls)
    (by simp [h])]
  simp only [Bool.false_eq_true, if_false]
  rw [foldNext_fold (fun s c n hc => schemaStep_at fuel s c n hc)]
  obtain ⟨p, cu, r, u⟩ := c
  simp only at h
  subst h
  cases n
  rfl

private theorem read_schema (fuel : Nat) (lists : List Node) :
    readNode (fuel + 1) (element 2 lists)
      = (foldRes (fun ls n => foldRes (stepOf fuel) ls n.kids) [] lists).bind (fun ls => .ok (.schema (Schema.make ls))) := by
  rw [read_element (by decide)]
  have : build (dispatch fuel) (descId 2) = schemaBuild (dispatch fuel) := rfl
  rw [this]
  unfold schemaBuild
  have h1 : validateAndNext 2 ⟨[], some (.mk (.ulong (descId 2)) []), [.mk .list lists], []⟩
      = (.ok (), ⟨[.mk (.ulong (descId 2)) []], some (.mk .list lists), [], []⟩) := by
    simp [validateAndNext, bind_def, attest, Cursor.type, Node.val, Atom.type, look, getUlong, Cursor.val, next_cons,
      pure_def]
  rw [bind_of_ok h1, bind_def]
  rw [autoListEnter_eq (fun _ => scoped_foldNext (fun ls =>
    scopedOn_autoListEnter fun _ => scoped_foldNext (fun ls => scopedOn_schemaStep (scoped_dispatch _) ls) ls) _) rfl]
  simp only [Bool.false_eq_true, if_false]
  rw [foldNext_fold (fun s c n hc => schemaLevel_at fuel s c n hc)]
  simp only [Cursor.enter]
  cases foldRes (fun ls n => foldRes (stepOf fuel) ls n.kids) [] lists <;> rfl

private theorem foldRes_types (fuel : Nat) (ds : List TypeDesc) (ts : List TypeNotation)
    (h : ds.map TypeDesc.make = ts.map Res.ok) (ls : List (List TypeNotation)) :
    foldRes (stepOf (fuel + 2)) ls (ds.map TypeDesc.tree) = ts.foldlM (insertR TypeNotation.dependsOn) ls := by
  induction ds generalizing ts ls with
  | nil =>
    cases ts with
    | nil => rfl
    | cons t ts => simp at h
  | cons d ds ih =>
    cases ts with
    | nil => simp at h
    | cons t ts =>
      simp only [List.map_cons, List.cons.injEq] at h
      simp only [List.map_cons, foldRes, stepOf, read_type, h.1, List.foldlM_cons]
      simp only [Res.bind, toNotation, Res.bind_eq]
      cases insertR TypeNotation.dependsOn ls t with
      | ok ls' => exact ih ts h.2 ls'
      | throw m => rfl
      | ub m => rfl

private theorem read_schema_types (fuel : Nat) (ds : List TypeDesc) (ts : List TypeNotation)
    (h : ds.map TypeDesc.make = ts.map Res.ok) :
    readNode (fuel + 3) (schemaTree (ds.map TypeDesc.tree))
      = (insertAllR TypeNotation.dependsOn ts).bind (fun ls => .ok (.schema (Schema.make ls))) := by
  unfold schemaTree
  rw [read_schema]
  simp only [foldRes, Node.kids, foldRes_types fuel ds ts h]
  unfold insertAllR
  cases ts.foldlM (insertR TypeNotation.dependsOn) [] <;> rfl

private def toSchema : Element → Res Schema
  | .schema t => .ok t
  | .null => .ub "null element"
  | _ => .ub "wrong element class"

private theorem asSchema_eq (e : Element) (c : Cursor) : asSchema e c = (toSchema e, c) := by cases e <;> rfl

/-- A payload: a described value whose descriptor is the fingerprint of its type. -/
def payloadTree (fp : Str) (body : List Node) : Node := .mk .described (sym fp :: body)

private theorem envelope_at (c : Cursor) (fp : Str) (body : List Node) (schema x : Node)
    (h : c.cur = some (envelopeTree (payloadTree fp body) schema x)) :
    readEnvelope c = (((readNode c.fuel schema).bind toSchema).bind (fun s => .ok (s, fp)), c) := by
  unfold readEnvelope
  have h1 : isDescribed c = (.ok true, c) := by
    simp [isDescribed, look, Cursor.type, h, envelopeTree, element, Node.val, Atom.type]
  rw [bind_of_ok h1]
  simp only [if_true]
  have hs : Scoped (do let id ← look getUlong; build (dispatch c.fuel) id) :=
    scoped_bind (scoped_look _) fun id => scoped_build (scoped_dispatch _) id
  rw [bind_def, autoEnter_eq hs (by simp [h])]
  simp only [Bool.false_eq_true, if_false]
  have he : c.enter.next.2 = Cursor.under ⟨[], some (.mk (.ulong (descId 1)) []),
      [.mk .list [payloadTree fp body, schema, x]], []⟩ ((c.prev, .described, c.rest) :: c.up) := by
    rw [descId_eq 1 (by decide)]
    obtain ⟨p, cu, r, u⟩ := c
    simp only at h
    subst h
    rfl
  rw [he, (hs _).2]
  have hb : ((do let id ← look getUlong; build (dispatch c.fuel) id) ⟨[], some (.mk (.ulong (descId 1)) []),
      [.mk .list [payloadTree fp body, schema, x]], []⟩).1
      = ((readNode c.fuel schema).bind toSchema).bind (fun s => .ok (.envelope s fp)) := by
    have h2 : look getUlong ⟨[], some (.mk (.ulong (descId 1)) []),
        [.mk .list [payloadTree fp body, schema, x]], []⟩ = (.ok (descId 1), ⟨[], some (.mk (.ulong (descId 1)) []),
        [.mk .list [payloadTree fp body, schema, x]], []⟩) := rfl
    rw [bind_of_ok h2]
    have : build (dispatch c.fuel) (descId 1) = envelopeBuild (dispatch c.fuel) := rfl
    rw [this]
    unfold envelopeBuild
    rw [validated_eval (scoped_envelopeBody (scoped_dispatch _))]
    unfold envelopeBody
    have h3 : consumeBlob ⟨[], some (payloadTree fp body), [schema, x], []⟩
        = (.ok fp, ⟨[], some (payloadTree fp body), [schema, x], []⟩) := by
      unfold consumeBlob
      have h4 : attestDescribed ⟨[], some (payloadTree fp body), [schema, x], []⟩
          = (.ok (), ⟨[], some (payloadTree fp body), [schema, x], []⟩) := rfl
      rw [bind_of_ok h4, autoEnter_eq scoped_getSymbol rfl]
      rfl
    rw [bind_of_ok h3, bind_of_ok (next_cons _ _ _ _ _), bind_def, dispatch_at _ rfl]
    cases readNode c.fuel schema with
    | throw m => rfl
    | ub m => rfl
    | ok e =>
      simp only [bind_def, asSchema_eq, Res.bind]
      cases toSchema e <;> rfl
  rw [hb]
  cases (readNode c.fuel schema).bind toSchema <;> rfl

/-- **C22.** The envelope written around a payload and a list of type descriptions is one AMQP value.  Reading it
back, wherever the cursor on it is, gives the payload's fingerprint as the outer type and the schema obtained by
collecting the directly constructed types in that order; the cursor ends where it began. -/
theorem C22_envelope_round_trip (ds : List TypeDesc) (ts : List TypeNotation) (fp : Str) (body : List Node)
    (hm : ds.map TypeDesc.make = ts.map Res.ok) (c : Cursor) (n : Node)
    (hw : envelopeProton [payloadTree fp body] (schemaProton (ds.map TypeDesc.proton)) = [n])
    (hc : c.cur = some n) :
    readEnvelope c = ((insertAllR TypeNotation.dependsOn ts).bind (fun ls => .ok (Schema.make ls, fp)), c) := by
  have : ds.map TypeDesc.proton = (ds.map TypeDesc.tree).map fun n => [n] := by
    rw [List.map_map]
    exact List.map_congr_left fun d _ => TypeDesc.proton_eq d
  rw [this, schemaProton_eq, envelopeProton_eq] at hw
  simp only [List.cons.injEq, and_true] at hw
  subst hw
  rw [envelope_at c fp body _ _ hc]
  have hh : (schemaTree (ds.map TypeDesc.tree)).height ≤ c.fuel := by
    unfold Cursor.fuel
    rw [hc]
    simp only [envelopeTree, element, Node.height, Node.height.heights]
    omega
  rw [readNode_fuel hh (Nat.le_add_right _ 3), read_schema_types _ ds ts hm]
  cases insertAllR TypeNotation.dependsOn ts <;> rfl

/-- **C22, in words**: whatever is read back has the payload's fingerprint as outer type and holds exactly the
described types. -/
theorem C22_envelope_content (ds : List TypeDesc) (ts : List TypeNotation) (fp : Str) (body : List Node)
    (hm : ds.map TypeDesc.make = ts.map Res.ok) (c : Cursor) (n : Node)
    (hw : envelopeProton [payloadTree fp body] (schemaProton (ds.map TypeDesc.proton)) = [n])
    (hc : c.cur = some n) (s : Schema) (o : Str) (hr : (readEnvelope c).1 = .ok (s, o)) :
    o = fp ∧ s.types.flatten.Perm ts ∧ (readEnvelope c).2 = c := by
  have h := C22_envelope_round_trip ds ts fp body hm c n hw hc
  refine ⟨?_, ?_, by rw [h]⟩
  all_goals
    rw [h] at hr
    simp only [Res.bind_eq_ok] at hr
    obtain ⟨ls, hl, hr⟩ := hr
    simp only [Res.ok.injEq, Prod.mk.injEq] at hr
  · exact hr.2.symm
  · rw [← hr.1, schema_make_types]
    exact (C11_schema_types ts ls hl).1

theorem inOrder_eq_ok {α : Type} (rs : List (Res α)) (as : List α) (h : inOrder rs = .ok as) : rs = as.map Res.ok := by
  induction rs generalizing as with
  | nil => simp only [inOrder, Res.ok.injEq] at h; subst h; rfl
  | cons r rs ih =>
    cases r with
    | throw m => simp [inOrder] at h
    | ub m => simp [inOrder] at h
    | ok a =>
      rw [inOrder, Res.bind_eq_ok] at h
      obtain ⟨b, hb, h⟩ := h
      rw [Res.bind_eq_ok] at h
      obtain ⟨bs, hbs, h⟩ := h
      simp only [Res.ok.injEq] at hb h
      subst hb h
      simp [ih bs hbs]

private theorem foldRes_types_only (fuel : Nat) (ds : List TypeDesc) (ls r : List (List TypeNotation))
    (h : foldRes (stepOf (fuel + 2)) ls (ds.map TypeDesc.tree) = .ok r) :
    ∃ ts : List TypeNotation, ds.map TypeDesc.make = ts.map Res.ok := by
  induction ds generalizing ls with
  | nil => exact ⟨[], rfl⟩
  | cons d ds ih =>
    simp only [List.map_cons, foldRes, stepOf, read_type] at h
    cases hd : d.make with
    | throw m => rw [hd] at h; simp at h
    | ub m => rw [hd] at h; simp at h
    | ok t =>
      rw [hd] at h
      simp only [Res.bind, toNotation] at h
      cases hi : insertR TypeNotation.dependsOn ls t with
      | throw m => rw [hi] at h; simp at h
      | ub m => rw [hi] at h; simp at h
      | ok ls' =>
        rw [hi] at h
        obtain ⟨ts, hts⟩ := ih ls' h
        exact ⟨t :: ts, by simp [hd, hts]⟩

/-- **C22, the converse**: an envelope is read only if all the described types can be constructed. -/
theorem C22_envelope_only (ds : List TypeDesc) (fp : Str) (body : List Node) (x : Node) (c : Cursor)
    (hc : c.cur = some (envelopeTree (payloadTree fp body) (schemaTree (ds.map TypeDesc.tree)) x)) (r : Schema × Str)
    (hr : (readEnvelope c).1 = .ok r) : ∃ ts : List TypeNotation, ds.map TypeDesc.make = ts.map Res.ok := by
  rw [envelope_at c fp body _ _ hc] at hr
  have hh : (schemaTree (ds.map TypeDesc.tree)).height ≤ c.fuel := by
    unfold Cursor.fuel
    rw [hc]
    simp only [envelopeTree, element, Node.height, Node.height.heights]
    omega
  rw [readNode_fuel hh (Nat.le_add_right _ 3)] at hr
  unfold schemaTree at hr
  rw [read_schema] at hr
  simp only [foldRes, Node.kids] at hr
  cases hf : foldRes (stepOf ((element 2 [.mk .list (ds.map TypeDesc.tree)]).height + 2)) [] (ds.map TypeDesc.tree) with
  | ok ls => exact foldRes_types_only _ ds [] ls hf
  | throw m => rw [hf] at hr; simp at hr
  | ub m => rw [hf] at hr; simp at hr

/-- A concrete envelope: an object of class `A` with one `int` field; the reader finds its class. -/
example : ∃ s, (readEnvelope (Cursor.root (envelopeTree (payloadTree "fp".toList [.mk (.int 1) []])
      (schemaTree [compositeTree "A".toList [] [] "fp".toList
        [FieldDesc.tree ⟨"a".toList, "int".toList, [], [], [], true, false⟩]]) (.mk .null [])))).1 = .ok (s, "fp".toList)
    ∧ s.types.map (·.map TypeNotation.name) = [["A".toList]] :=
  ⟨Schema.make [[.comp ⟨"A".toList, [], [], "fp".toList,
    [⟨.primitive, "a".toList, "int".toList, [], [], [], true, false, []⟩]⟩]], by decide +kernel, by decide +kernel⟩

/-! ### C24: identifiers -/

/-- Specification: the cursor is on an unsigned long with the Corda identifier of element `k`. -/
def OnId (k : Nat) (c : Cursor) : Prop := ∃ ks, c.cur = some (.mk (.ulong (cordaId k)) ks)

private theorem validate_cases (k : Nat) (hk : k ≤ 22) (c : Cursor) :
    (OnId k c ∧ validateAndNext k c = (.ok (), c.next.2))
    ∨ (¬ OnId k c ∧ ∃ m, validateAndNext k c = (.throw m, c)) := by
  have he := descId_eq k hk
  unfold OnId validateAndNext
  cases hc : c.cur with
  | none =>
    right
    refine ⟨by simp, "Bad type for a descriptor", ?_⟩
    rw [bind_of_throw]
    simp [attest, Cursor.type, hc]
  | some n =>
    cases n with
    | mk v ks =>
      by_cases ht : v.type = .ulong
      · cases v with
        | ulong i =>
          have h1 : attest .ulong "Bad type for a descriptor" c = (.ok (), c) := by
            simp [attest, Cursor.type, hc, Node.val, Atom.type]
          have h2 : look getUlong c = (.ok i, c) := by simp [look, getUlong, Cursor.val, hc, Node.val]
          rw [bind_of_ok h1, bind_of_ok h2]
          by_cases hi : i = descId k
          · left
            simp only [hi, ne_eq, not_true, if_false]
            exact ⟨⟨ks, by rw [he]⟩, rfl⟩
          · right
            simp only [ne_eq, hi, not_false_iff, if_true]
            refine ⟨?_, _, rfl⟩
            rintro ⟨ks', h⟩
            simp only [Option.some.injEq, Node.mk.injEq, Atom.ulong.injEq] at h
            exact hi (h.1.trans he.symm)
        | _ => simp [Atom.type] at ht
      · right
        refine ⟨?_, "Bad type for a descriptor", ?_⟩
        · rintro ⟨ks', h⟩
          simp only [Option.some.injEq, Node.mk.injEq] at h
          rw [h.1] at ht
          exact ht rfl
        · rw [bind_of_throw]
          simp [attest, Cursor.type, hc, Node.val, ht]

/-- All element readers of the registry with their numbers. -/
def readers (rec : Prog Element) : List (Nat × Prog Element) :=
  [(1, envelopeBuild rec), (2, schemaBuild rec), (3, objectBuild), (4, fieldBuild), (5, compositeBuild rec),
   (6, restrictedBuild rec), (7, choiceBuild), (8, nullBuild 8), (9, nullBuild 9), (10, nullBuild 10),
   (11, nullBuild 11)]

/-- **C24.** Every element reader throws, without moving, unless the descriptor is an unsigned long equal to its
Corda identifier; in particular it returns an element only if it is. -/
theorem C24_reader_validates (rec : Prog Element) (c : Cursor) :
    ∀ r ∈ readers rec, (¬ OnId r.1 c → (r.2 c).1.Throws ∧ (r.2 c).2 = c)
      ∧ ∀ e, (r.2 c).1 = .ok e → OnId r.1 c := by
  have key : ∀ (k : Nat) (f : Unit → Prog Element), k ≤ 22 → ¬ OnId k c →
      ((validateAndNext k >>= f) c).1.Throws ∧ ((validateAndNext k >>= f) c).2 = c := by
    intro k f hk hn
    rcases validate_cases k hk c with ⟨h, -⟩ | ⟨-, m, h⟩
    · exact absurd h hn
    · rw [bind_of_throw h]; exact ⟨trivial, rfl⟩
  have main : ∀ r ∈ readers rec, ¬ OnId r.1 c → (r.2 c).1.Throws ∧ (r.2 c).2 = c := by
    intro r hr hn
    simp only [readers, List.mem_cons, List.not_mem_nil, or_false] at hr
    rcases hr with h | h | h | h | h | h | h | h | h | h | h <;> subst h <;> exact key _ _ (by decide) hn
  intro r hr
  refine ⟨main r hr, fun e he => ?_⟩
  rcases Classical.em (OnId r.1 c) with h | h
  · exact h
  · have := (main r hr h).1
    rw [he] at this
    exact this.elim

/-- **C24, the check itself** accepts exactly the right descriptor and then moves on. -/
theorem C24_validate_exact (k : Nat) (hk : k ≤ 22) (c : Cursor) :
    ((validateAndNext k c).1 = .ok () ↔ OnId k c) ∧ ((validateAndNext k c).1.Throws ↔ ¬ OnId k c)
    ∧ (OnId k c → (validateAndNext k c).2 = c.next.2) ∧ (¬ OnId k c → (validateAndNext k c).2 = c) := by
  rcases validate_cases k hk c with ⟨h, e⟩ | ⟨h, m, e⟩ <;> rw [e] <;> simp [h, Res.Throws]

/-- **C24, the registry** maps exactly the eleven Corda identifiers to their own readers; everything else is the
`described` entry (22) or missing. -/
theorem C24_registry (rec : Prog Element) (id : Nat) :
    (∀ r ∈ readers rec, id = cordaId r.1 → build rec id = r.2)
    ∧ ((∀ r ∈ readers rec, id ≠ cordaId r.1) → id ≠ 22 → build rec id = ub "null registry entry") := by
  constructor
  · intro r hr he
    simp only [readers, List.mem_cons, List.not_mem_nil, or_false] at hr
    rcases hr with h | h | h | h | h | h | h | h | h | h | h <;> subst h <;> rw [he] <;> rfl
  · intro h h22
    simp only [readers, List.mem_cons, List.not_mem_nil, or_false, forall_eq_or_imp, forall_eq, ne_eq] at h
    simp only [← descId_eq 1 (by decide), ← descId_eq 2 (by decide), ← descId_eq 3 (by decide),
      ← descId_eq 4 (by decide), ← descId_eq 5 (by decide), ← descId_eq 6 (by decide), ← descId_eq 7 (by decide),
      ← descId_eq 8 (by decide), ← descId_eq 9 (by decide), ← descId_eq 10 (by decide),
      ← descId_eq 11 (by decide)] at h
    unfold build
    simp [h, h22]

/-- **C24, `stripCorda`** recovers the element number, for every 32-bit number. -/
theorem C24_strip (k : Nat) (hk : k < 2 ^ 32) : stripCorda (cordaId k) = k := by
  unfold stripCorda cordaId
  rw [show (0xffffffff : Nat) = 2 ^ 32 - 1 by decide, Nat.and_two_pow_sub_one_eq_mod]
  omega

example : (validateAndNext 4 (Cursor.root (.mk (.ulong (cordaId 5)) []))).1.Throws := by decide
example : (validateAndNext 4 (Cursor.root (.mk (.ulong 4) []))).1.Throws := by decide

/-- **C24, names of identifiers**: `describedToString` names exactly the eleven identifiers. -/
theorem C24_names (v : Nat) :
    (∀ p ∈ [(1, "ENVELOPE"), (2, "SCHEMA"), (3, "OBJECT_DESCRIPTOR"), (4, "FIELD"), (5, "COMPOSITE_TYPE"),
        (6, "RESTRICTED_TYPE"), (7, "CHOICE"), (8, "REFERENCED_OBJECT"), (9, "TRANSFORM_SCHEMA"),
        (10, "TRANSFORM_ELEMENT"), (11, "TRANSFORM_ELEMENT_KEY")],
      v = cordaId p.1 → describedToString v = p.2.toList)
    ∧ ((∀ k, 1 ≤ k → k ≤ 11 → v ≠ cordaId k) → describedToString v = "UNKNOWN".toList) := by
  constructor
  · intro p hp hv
    subst hv
    revert p
    decide +kernel
  · intro h
    have h' : ∀ k, 1 ≤ k → k ≤ 11 → v ≠ descId k := fun k h1 h2 => by
      rw [descId_eq k (by omega)]; exact h k h1 h2
    unfold describedToString
    simp [h' 1 (by decide) (by decide), h' 2 (by decide) (by decide), h' 3 (by decide) (by decide),
      h' 4 (by decide) (by decide), h' 5 (by decide) (by decide), h' 6 (by decide) (by decide),
      h' 7 (by decide) (by decide), h' 8 (by decide) (by decide), h' 9 (by decide) (by decide),
      h' 10 (by decide) (by decide), h' 11 (by decide) (by decide)]

/-! ### C25, C26: reading leaves data and cursor alone -/

private theorem readEnvelope_cursor (c : Cursor) : (readEnvelope c).2 = c := by
  unfold readEnvelope
  by_cases hd : c.type = .described
  · have h1 : isDescribed c = (.ok true, c) := by simp [isDescribed, look, hd]
    rw [bind_of_ok h1]
    simp only [if_true]
    have hs : Scoped (do let id ← look getUlong; build (dispatch c.fuel) id) :=
      scoped_bind (scoped_look _) fun id => scoped_build (scoped_dispatch _) id
    have hc : c.cur.isSome = true := by
      unfold Cursor.type at hd
      cases hc : c.cur with
      | none => rw [hc] at hd; simp at hd
      | some n => rfl
    rw [bind_def, autoEnter_eq hs hc]
    generalize ((do let id ← look getUlong; build (dispatch c.fuel) id : Prog Element) _).1 = r
    cases r with
    | ok e => cases e <;> rfl
    | throw m => rfl
    | ub m => rfl
  · have h1 : isDescribed c = (.ok false, c) := by simp [isDescribed, look, hd]
    rw [bind_of_ok h1]
    rfl

/-- **C25 for reading the envelope**: whatever the tree, the position and the outcome, the data are unchanged. -/
theorem C25_envelope_data (c : Cursor) : (readEnvelope c).2.forest = c.forest := by rw [readEnvelope_cursor]

/-- **C25 for every schema element reader**, at any position and with any outcome. -/
theorem C25_element_data (fuel id : Nat) (c : Cursor) : (build (dispatch fuel) id c).2.forest = c.forest :=
  ((scoped_build (scoped_dispatch fuel) id) c).1.forest

/-- **C26.** Reading the envelope of any tree from any position puts the cursor back exactly where it was, whether it
returns or throws; so does reading a nested element. -/
theorem C26_envelope_cursor (c : Cursor) : (readEnvelope c).2 = c := readEnvelope_cursor c

theorem C26_element_cursor (fuel : Nat) (c : Cursor) : (dispatch fuel c).2 = c := dispatch_cursor fuel c

/-- **C26, repeatable**: reading again gives the same result. -/
theorem C26_envelope_again (c : Cursor) : (readEnvelope (readEnvelope c).2).1 = (readEnvelope c).1 := by
  rw [readEnvelope_cursor]

#print axioms C19_field_round_trip
#print axioms C19_field_written
#print axioms C20_composite_round_trip
#print axioms C20_composite_fields
#print axioms C21_restricted_round_trip
#print axioms C21_restricted_content
#print axioms C21_enum_read
#print axioms C21_boxed
#print axioms C22_envelope_round_trip
#print axioms C22_envelope_content
#print axioms C22_envelope_only
#print axioms C24_reader_validates
#print axioms C24_validate_exact
#print axioms C24_registry
#print axioms C24_strip
#print axioms C24_names
#print axioms C25_envelope_data
#print axioms C25_element_data
#print axioms C26_envelope_cursor
#print axioms C26_element_cursor
#print axioms C26_envelope_again

end Corda.Props
