import Verif.Spec.Flat
import Verif.Props.Shown
import Verif.Props.AnyInspect
import Verif.Lemmas.Alike

/-
C38 for objects of primitive values, written in any order.
-/

namespace Corda.Props
open Corda Prog Spec

private theorem flat_classes {ms : List Member} (h : OnlyPrimitives ms) : classesMembers ms = [] := by
  induction ms with
  | nil => rw [classesMembers]
  | cons m ms ih =>
    rw [classesMembers, ih fun x hx => h x (List.mem_cons_of_mem _ hx)]
    obtain ⟨t, ht, -⟩ := h m List.mem_cons_self
    cases m <;> first | rfl | (simp [memberType] at ht)

private theorem flat_props {ms : List Member} (h : OnlyPrimitives ms) (k : Str × Str) : propsMembers k ms = ms.map fun m => (k, memberDesc m) := by
  induction ms with
  | nil => rw [propsMembers]; rfl
  | cons m ms ih =>
    rw [propsMembers, ih fun x hx => h x (List.mem_cons_of_mem _ hx)]
    obtain ⟨t, ht, -⟩ := h m List.mem_cons_self
    cases m <;> first | rfl | (simp [memberType] at ht)

private theorem desc_type {m : Member} {t : PrimType} (h : memberType m = some t) : (memberDesc m).type = t.typeName ∧ (memberDesc m).requires = [] := by
  cases m <;> simp only [memberType, Option.some.injEq, reduceCtorEq] at h <;> (subst h; exact ⟨rfl, rfl⟩)

private theorem flat_first (ms : List Member) (k : Str × Str) (x : Str) :
    firstProp (ms.map fun m => (k, memberDesc m)) k x = (ms.map memberDesc).find? fun p => p.name == x := by
  unfold firstProp
  induction ms with
  | nil => rfl
  | cons m ms ih =>
    rw [List.map_cons, List.findSome?_cons, List.map_cons, List.find?_cons, ih]
    by_cases hx : (memberDesc m).name = x
    · simp [hx]
    · rw [beq_false_of_ne hx]
      simp [hx]

/-- The field made for such a property. -/
private def flatField (p : PropDesc) : Field := ⟨.primitive, p.name, p.type, [], [], [], p.mandatory, false, []⟩

private theorem type_primitive (t : PrimType) (h : t ≠ .char) : typeIsPrimitive t.typeName = true ∧ t.typeName ∈ readable := by
  cases t with
  | char => exact absurd rfl h
  | int => exact ⟨by decide +kernel, by decide +kernel⟩
  | string => exact ⟨by decide +kernel, by decide +kernel⟩
  | bool => exact ⟨by decide +kernel, by decide +kernel⟩
  | float => exact ⟨by decide +kernel, by decide +kernel⟩
  | double => exact ⟨by decide +kernel, by decide +kernel⟩
  | long => exact ⟨by decide +kernel, by decide +kernel⟩

private theorem readable_named {t : Str} (h : t ∈ readable) : ∃ p, primNamed t = some p := by
  have : ∀ t ∈ readable, (primNamed t).isSome = true := by decide +kernel
  exact Option.isSome_iff_exists.mp (this t h)

private theorem flatField_made {p : PropDesc} {t : PrimType} (h : p.type = t.typeName) (hc : t ≠ .char) : (propField p).make = .ok (flatField p) := by
  unfold FieldDesc.make propField Field.make
  simp only [h, (type_primitive t hc).1, if_true]
  unfold flatField
  rw [h]
  rfl

/-- What is known after the fields were looked at. -/
private theorem need_flat (self : Str) : ∀ (qs : List PropDesc) (T : Table), (∀ q ∈ qs, q.type ∈ readable) →
    (∀ t ∈ readable, ∀ h, T.lookup t = some h → ∃ p, primNamed t = some p ∧ h = .prim p) →
    ∃ T', needFields self T (qs.map flatField) = .ok T' ∧ (∀ t ∈ readable, ∀ h, T'.lookup t = some h → ∃ p, primNamed t = some p ∧ h = .prim p)
      ∧ (∀ t h, T.lookup t = some h → T'.lookup t = some h) ∧ ∀ q ∈ qs, ∃ p, primNamed q.type = some p ∧ T'.lookup q.type = some (.prim p) := by
  intro qs
  induction qs with
  | nil => intro T _ hT; exact ⟨T, rfl, hT, fun _ _ h => h, by simp⟩
  | cons q qs ih =>
    intro T hq hT
    obtain ⟨p, hp⟩ := readable_named (hq q List.mem_cons_self)
    obtain ⟨T1, h1, h2, h3, h4⟩ : ∃ T1, needPrimitive T q.type = .ok T1 ∧ (∀ t ∈ readable, ∀ h, T1.lookup t = some h → ∃ p, primNamed t = some p ∧ h = .prim p)
        ∧ (∀ t h, T.lookup t = some h → T1.lookup t = some h) ∧ T1.lookup q.type = some (.prim p) := by
      unfold needPrimitive
      cases hl : T.lookup q.type with
      | some h =>
        obtain ⟨p', hp', rfl⟩ := hT _ (hq q List.mem_cons_self) h hl
        rw [hp] at hp'
        cases hp'
        exact ⟨T, rfl, hT, fun _ _ h => h, hl⟩
      | none =>
        simp only [hp]
        refine ⟨_, rfl, ?_, ?_, ?_⟩
        · intro t ht h hh
          rw [List.lookup_cons] at hh
          split at hh
          · rename_i he
            have : t = q.type := by simpa using he
            subst this
            simp only [Option.some.injEq] at hh
            exact ⟨p, hp, hh.symm⟩
          · exact hT t ht h hh
        · intro t h hh
          rw [List.lookup_cons]
          split
          · rename_i he
            have : t = q.type := by simpa using he
            subst this
            rw [hl] at hh
            cases hh
          · exact hh
        · rw [List.lookup_cons, beq_self_eq_true]
    obtain ⟨T', g1, g2, g3, g4⟩ := ih T1 (fun x hx => hq x (List.mem_cons_of_mem _ hx)) h2
    refine ⟨T', ?_, g2, fun t h hh => g3 t h (h3 t h hh), ?_⟩
    · rw [List.map_cons]
      show (needPrimitive T q.type >>= fun T' => needFields self T' (qs.map flatField)) = _
      rw [h1]
      exact g1
    · intro x hx
      rcases List.mem_cons.mp hx with rfl | hx
      · exact ⟨p, hp, g3 _ _ h4⟩
      · exact g4 x hx

private theorem length_le' {α : Type} [DecidableEq α] {a b : List α} (ha : a.Nodup) (h : ∀ x ∈ a, x ∈ b) : a.length ≤ b.length := by
  induction a generalizing b with
  | nil => simp
  | cons x a ih =>
    have hx := h x List.mem_cons_self
    have h1 := ih (b := b.erase x) (List.nodup_cons.mp ha).2 fun y hy => by
      have hne : y ≠ x := fun e => (List.nodup_cons.mp ha).1 (e ▸ hy)
      exact (List.mem_erase_of_ne hne).mpr (h y (List.mem_cons_of_mem _ hy))
    have h2 := List.length_erase_of_mem hx
    have h3 := List.length_pos_of_mem hx
    rw [List.length_cons]
    omega

private theorem memberTrees_len' (ms : List Member) : (memberTrees ms).length = ms.length := by
  induction ms with
  | nil => rw [memberTrees]; rfl
  | cons m ms ih => rw [memberTrees, List.length_cons, ih, List.length_cons]

private theorem zip_nth {β : Type} (g : PropDesc → Option Node → β) : ∀ (qs : List PropDesc) (pre vs : List Node), qs.length ≤ vs.length →
    ((qs.map flatField).zip (qs.map flatField) |>.zipIdx pre.length).map (fun x => g ⟨x.1.1.name, x.1.2.type, [], x.1.1.mandatory⟩ (nth (pre ++ vs) x.2))
      = (qs.zip vs).map fun x => g ⟨x.1.name, x.1.type, [], x.1.mandatory⟩ (some x.2) := by
  intro qs
  induction qs with
  | nil => intro pre vs _; simp
  | cons q qs ih =>
    intro pre vs h
    cases vs with
    | nil => simp at h
    | cons v vs =>
      have h' := ih (pre ++ [v]) vs (by simpa using h)
      simp only [List.length_append, List.length_singleton, List.append_assoc, List.singleton_append] at h'
      have hv : nth (pre ++ v :: vs) pre.length = some v := by
        unfold nth
        rw [Nat.min_eq_left (by simp)]
        simp
      simp only [List.map_cons, List.zip_cons_cons, List.zipIdx_cons, hv, h']
      rfl

/-- **C38, objects of primitive values, in any order**: the properties in alphabetical order are shown with the values in the order of writing, each read as a value of
the type of the property it is paired with. -/
theorem C38_flat (leftFirst : Bool) (n f : Str) (ms : List Member) (hf : OnlyPrimitives ms) (hn : n ∉ readable) (hk : n ≠ keyType) :
    ∃ node qs, serialise (.comp n f ms) = .ok [node] ∧ Alphabet ms qs ∧ ∀ c : Cursor, c.cur = some node → inspect leftFirst c = (flatInspection qs ms, c) := by
  have hcl : classes (.comp n f ms) = [((n, f), none)] := by rw [classes, flat_classes hf]
  have hpr : props (.comp n f ms) = ms.map fun m => ((n, f), memberDesc m) := by rw [props, flat_props hf]
  have hno : NoClash (.comp n f ms) := by
    intro a ha b hb _
    rw [hcl, List.mem_singleton] at ha hb
    rw [ha, hb]
  have hcp : NoCharPointers (.comp n f ms) := by
    rw [NoCharPointers]
    clear hcl hpr hno
    induction ms with
    | nil => rw [NoCharPointersMembers]; trivial
    | cons m ms ih =>
      rw [NoCharPointersMembers]
      refine ⟨?_, ih fun x hx => hf x (List.mem_cons_of_mem _ hx)⟩
      obtain ⟨t, ht, hc⟩ := hf m List.mem_cons_self
      cases m with
      | prim a b v =>
        simp only [memberType, Option.some.injEq] at ht
        rw [NoCharPointersMember, ht]
        exact fun _ h => absurd h hc
      | nullPrim a b =>
        simp only [memberType, Option.some.injEq] at ht
        rw [NoCharPointersMember, ht]
        exact hc
      | obj => simp [memberType] at ht
      | nullObj => simp [memberType] at ht
  obtain ⟨ns, hns⟩ := C30_succeeds _ hno hcp
  rcases serialise_eq (.comp n f ms) with ⟨ds, hd, -, h1⟩ | ⟨-, h1⟩ | ⟨-, h1⟩
  rotate_left
  · rw [h1] at hns; simp at hns
  · rw [h1] at hns; simp at hns
  obtain ⟨d, hds, hdk⟩ : ∃ d, ds = [d] ∧ d.key = (n, f) := by
    have hall : ∀ e ∈ ds, e.key = (n, f) := by
      intro e he
      have h2 := (hd.exact e.key).1 (List.mem_map_of_mem he)
      rw [hcl] at h2
      simpa using h2
    have hin : (n, f) ∈ ds.map ClassDesc.key := (hd.exact _).2 (by rw [hcl]; simp)
    obtain ⟨d, hdm, hdk⟩ := List.mem_map.mp hin
    refine ⟨d, ?_, hdk⟩
    refine sorted_ext keyOrder ClassDesc.key hd.sorted (List.pairwise_singleton _ _) fun x => ?_
    rw [List.mem_singleton]
    exact ⟨fun hx => unique_key hd.once hx hdm (by rw [hall x hx, hdk]), fun h => h ▸ hdm⟩
  subst hds
  obtain ⟨qs, hb⟩ : ∃ qs, d.body = .inl qs := by
    cases hb : d.body with
    | inl qs => exact ⟨qs, rfl⟩
    | inr src =>
      have := (hd.container d (by simp) src).1 hb
      rw [hcl, hdk] at this
      simp at this
  have hfirst : ∀ q, q ∈ qs ↔ (ms.map memberDesc).find? (fun p => p.name == q.name) = some q := by
    intro q
    rw [hd.propsExact d (by simp) qs hb q, hpr, hdk, flat_first]
  have hqs : ∀ q ∈ qs, ∃ t : PrimType, q.type = t.typeName ∧ t ≠ .char := by
    intro q hq
    obtain ⟨m, hm, rfl⟩ := List.mem_map.mp (List.mem_of_find?_eq_some ((hfirst q).1 hq))
    obtain ⟨t, ht, hc⟩ := hf m hm
    exact ⟨t, (desc_type ht).1, hc⟩
  have hlen : qs.length ≤ (memberTrees ms).length := by
    rw [memberTrees_len', ← List.length_map (f := memberDesc) (as := ms)]
    refine length_le' ((List.pairwise_map.mp (hd.propsOnce d (by simp) qs hb)).imp fun h e => h (congrArg _ e)) fun q hq => ?_
    exact List.mem_of_find?_eq_some ((hfirst q).1 hq)
  refine ⟨_, qs, h1, ⟨hd.propsSorted d (by simp) qs hb, hfirst⟩, fun c hc => ?_⟩
  rw [C92_any leftFirst c _ hc]
  refine Prod.ext ?_ rfl
  let cT : Composite := ⟨n, [], [], f, qs.map flatField⟩
  have hmake : ([d].map classType).map TypeDesc.make = [TypeNotation.comp cT].map Res.ok := by
    simp only [List.map_cons, List.map_nil, classType, hb, hdk, TypeDesc.make]
    have : (qs.map propField).map FieldDesc.make = (qs.map flatField).map Res.ok := by
      simp only [List.map_map]
      refine List.map_congr_left fun q hq => ?_
      obtain ⟨t, ht, hc⟩ := hqs q hq
      exact flatField_made ht hc
    rw [this, inOrder_ok]
    rfl
  have he : envelopeFrom (envelopeTree (objTree (.comp n f ms)) (schemaTree ([d].map ClassDesc.tree)) (.mk .null [])) = .ok (Schema.make [[.comp cT]], f) := by
    rw [← C89_any c _ hc, open_written _ _ _ hmake c hc]
    rfl
  obtain ⟨T, hT1, -, hT2, hT3⟩ := need_flat n qs onlyKeys (fun q hq => by
      obtain ⟨t, ht, hc⟩ := hqs q hq
      rw [ht]; exact (type_primitive t hc).2) (by
      intro t ht h hh
      exfalso
      have : ∀ t ∈ readable, onlyKeys.lookup t = none := by decide +kernel
      rw [this t ht] at hh
      cases hh)
  have hlearn : learnAll leftFirst onlyKeys [.comp cT] = .ok ((n, .type (.comp cT)) :: T) := by
    have hl : onlyKeys.lookup n = none := by
      unfold onlyKeys
      rw [List.lookup_cons, beq_false_of_ne hk]
      rfl
    show (learn leftFirst onlyKeys (.comp cT) >>= fun T' => learnAll leftFirst T' []) = _
    have : learn leftFirst onlyKeys (.comp cT) = .ok ((n, .type (.comp cT)) :: T) := by
      unfold learn
      rw [show (TypeNotation.comp cT).name = n from rfl, hl]
      show (needFields n onlyKeys (qs.map flatField) >>= fun T' => pure ((n, How.type (.comp cT)) :: T')) = _
      rw [hT1]
      rfl
    rw [this]
    rfl
  unfold inspectionOf
  rw [he]
  show (learnAll leftFirst onlyKeys (Schema.make [[.comp cT]]).types.flatten >>= fun T =>
    match (Schema.make [[.comp cT]]).types.flatten.reverse.find? (fun u => u.descriptor == f) with
    | none => .ub "assert"
    | some u => (payloadIn (envelopeTree (objTree (.comp n f ms)) (schemaTree ([d].map ClassDesc.tree)) (.mk .null [])) >>= fun p =>
      textIn leftFirst (Schema.make [[.comp cT]]).types.flatten T (depthOf p) true u.name p >>= fun s =>
      pure ("{ Parsed : ".toList ++ s ++ " }".toList))) = _
  rw [schema_make_types]
  show (learnAll leftFirst onlyKeys [.comp cT] >>= fun T =>
    match [TypeNotation.comp cT].find? (fun u => u.descriptor == f) with
    | none => .ub "assert"
    | some u => (payloadIn (envelopeTree (objTree (.comp n f ms)) (schemaTree ([d].map ClassDesc.tree)) (.mk .null [])) >>= fun p =>
      textIn leftFirst [.comp cT] T (depthOf p) true u.name p >>= fun s =>
      pure ("{ Parsed : ".toList ++ s ++ " }".toList))) = _
  have hfind : [TypeNotation.comp cT].find? (fun u => u.descriptor == f) = some (.comp cT) := by
    rw [List.find?_cons, show ((TypeNotation.comp cT).descriptor == f) = true from beq_self_eq_true f]
  rw [hlearn, hfind, objTree]
  show (textIn leftFirst [.comp cT] ((n, .type (.comp cT)) :: T) (describedNode f .list (memberTrees ms)).height true n
    (some (describedNode f .list (memberTrees ms))) >>= fun s => pure ("{ Parsed : ".toList ++ s ++ " }".toList)) = _
  obtain ⟨h, hh⟩ : ∃ h, (describedNode f .list (memberTrees ms)).height = h + 2 := by
    have h2 := height_kids (v := .described) (ks := [.mk (.symbol f) [], .mk .list (memberTrees ms)]) (k := .mk (.symbol f) []) (by simp)
    have h3 : 0 < (Node.mk (.symbol f) []).height := by rw [Node.height]; omega
    have h4 : (describedNode f .list (memberTrees ms)).height = (Node.mk .described [.mk (.symbol f) [], .mk .list (memberTrees ms)]).height := rfl
    exact ⟨(describedNode f .list (memberTrees ms)).height - 2, by omega⟩
  have htab : ((n, How.type (.comp cT)) :: T).lookup n = some (.type (.comp cT)) := by rw [List.lookup_cons, beq_self_eq_true]
  have hprop : propertyTexts [.comp cT] (textIn leftFirst [.comp cT] ((n, .type (.comp cT)) :: T) (h + 1)) cT (some (describedNode f .list (memberTrees ms)))
      = pairUp qs (memberTrees ms) := by
    have hw : typeWith [.comp cT] f = .ok (.comp cT) := by unfold typeWith; rw [hfind]
    have h0 : propertyTexts [.comp cT] (textIn leftFirst [.comp cT] ((n, .type (.comp cT)) :: T) (h + 1)) cT (some (describedNode f .list (memberTrees ms)))
        = (typeWith [.comp cT] f >>= fun u => match u with
          | .restr _ => .throw "std::bad_cast"
          | .comp c' => if c'.fields.length = cT.fields.length then do
              let ns ← listParts (some (.mk .list (memberTrees ms)))
              all ((c'.fields.zip cT.fields).zipIdx.map fun (x : (Field × Field) × Nat) =>
                (colon x.1.1.name) <$> textUnder (textIn leftFirst [.comp cT] ((n, .type (.comp cT)) :: T) (h + 1)) true (fieldRef cT x.1.2) (nth ns x.2))
            else .ub "assert") := rfl
    rw [h0, hw]
    show (if cT.fields.length = cT.fields.length then do
              let ns ← listParts (some (.mk .list (memberTrees ms)))
              all ((cT.fields.zip cT.fields).zipIdx.map fun (x : (Field × Field) × Nat) =>
                (colon x.1.1.name) <$> textUnder (textIn leftFirst [.comp cT] ((n, .type (.comp cT)) :: T) (h + 1)) true (fieldRef cT x.1.2) (nth ns x.2))
            else .ub "assert") = _
    rw [if_pos rfl]
    show all ((cT.fields.zip cT.fields).zipIdx.map fun (x : (Field × Field) × Nat) =>
      (colon x.1.1.name) <$> textUnder (textIn leftFirst [.comp cT] ((n, .type (.comp cT)) :: T) (h + 1)) true (fieldRef cT x.1.2) (nth (memberTrees ms) x.2)) = _
    have hz := zip_nth (fun q v => colon q.name <$> (match primNamed q.type with | some p => primText p v | none => .throw "THIS IS BAD")) qs [] (memberTrees ms) hlen
    unfold pairUp
    refine (congrArg all ?_).trans (congrArg all hz)
    refine List.map_congr_left fun x hx => ?_
    have hx1 : x.1.2 ∈ qs.map flatField := (List.of_mem_zip (a := x.1.1) (List.fst_mem_of_mem_zipIdx hx)).2
    obtain ⟨q, hq, hqx⟩ := List.mem_map.mp hx1
    obtain ⟨t, ht, hc⟩ := hqs q hq
    have hne : q.type ≠ n := by
      intro e
      rw [ht] at e
      exact hn (e ▸ (type_primitive t hc).2)
    have href : fieldRef cT x.1.2 = some q.type := by
      rw [← hqx]
      unfold fieldRef
      exact if_neg fun h => hne h.1
    obtain ⟨p, hp, hl⟩ := hT3 q hq
    have hty : x.1.2.type = q.type := by rw [← hqx]; rfl
    have hin : textIn leftFirst [.comp cT] ((n, .type (.comp cT)) :: T) (h + 1) true q.type (nth (memberTrees ms) x.2) = primText p (nth (memberTrees ms) x.2) := by
      rw [textIn, List.lookup_cons, beq_false_of_ne hne, hl]
    rw [href]
    show (colon x.1.1.name) <$> textIn leftFirst [.comp cT] ((n, .type (.comp cT)) :: T) (h + 1) true q.type (nth (memberTrees ms) x.2)
      = colon x.1.1.name <$> (match primNamed x.1.2.type with | some p => primText p (nth (memberTrees ms) x.2) | none => .throw "THIS IS BAD")
    rw [hin, hty, hp]
  rw [hh, textIn, htab]
  show ((if valueOf (some (describedNode f .list (memberTrees ms))) = some .null then .ok absent
      else braces <$> propertyTexts [.comp cT] (textIn leftFirst [.comp cT] ((n, .type (.comp cT)) :: T) (h + 1)) cT (some (describedNode f .list (memberTrees ms)))) >>= fun s =>
      pure ("{ Parsed : ".toList ++ s ++ " }".toList)) = _
  rw [if_neg (by simp [valueOf, describedNode, Node.val]), hprop]
  unfold flatInspection
  cases pairUp qs (memberTrees ms) <;> rfl

/-- There is only one alphabetical list. -/
private theorem alphabet_unique {ms : List Member} {qs rs : List PropDesc} (h : Alphabet ms qs) (h' : Alphabet ms rs) : qs = rs :=
  sorted_ext strOrder PropDesc.name h.sorted h'.sorted fun x => by rw [h.first, h'.first]

/-! ### Objects of integers -/

/-- Properties that are integers. -/
def intMembers (xs : List (Str × Int)) : List Member := xs.map fun x => .prim x.1 false (.int x.2)

private def intDesc (x : Str × Int) : PropDesc := ⟨x.1, PrimType.int.typeName, [], false⟩

private theorem intMembers_descs (xs : List (Str × Int)) : (intMembers xs).map memberDesc = xs.map intDesc := by
  simp only [intMembers, List.map_map]
  rfl

private theorem intMembers_trees (xs : List (Str × Int)) : memberTrees (intMembers xs) = xs.map fun x => .mk (.int x.2) [] := by
  induction xs with
  | nil => unfold intMembers; rw [List.map_nil, memberTrees]; rfl
  | cons x xs ih =>
    unfold intMembers at ih ⊢
    rw [List.map_cons, memberTrees, ih]
    rfl

private theorem int_alphabet {xs ys : List (Str × Int)} (hp : ys.Perm xs) (hs : ys.Pairwise fun a b => strLt a.1 b.1 = true) : Alphabet (intMembers xs) (ys.map intDesc) := by
  refine ⟨List.pairwise_map.mpr hs, fun q => ?_⟩
  rw [intMembers_descs]
  have hn : ∀ a ∈ xs.map intDesc, ∀ b ∈ xs.map intDesc, a.name = b.name → a = b := by
    intro a ha b hb h
    obtain ⟨x, -, rfl⟩ := List.mem_map.mp ha
    obtain ⟨y, -, rfl⟩ := List.mem_map.mp hb
    simp only [intDesc] at h
    simp only [intDesc, h]
  have hm : q ∈ ys.map intDesc ↔ q ∈ xs.map intDesc := (hp.map intDesc).mem_iff
  rw [hm]
  constructor
  · intro hq
    cases hf : (xs.map intDesc).find? fun p => p.name == q.name with
    | none =>
      have := List.find?_eq_none.mp hf q hq
      simp at this
    | some p =>
      have h1 := List.mem_of_find?_eq_some hf
      have h2 : p.name = q.name := by simpa using List.find?_some hf
      rw [hn p h1 q hq h2]
  · exact List.mem_of_find?_eq_some

private theorem pair_ints : ∀ (ys xs : List (Str × Int)), pairUp (ys.map intDesc) (xs.map fun x => .mk (.int x.2) [])
    = .ok (List.zipWith (fun y x => colon y.1 (decimal x.2)) ys xs)
  | [], _ => rfl
  | _ :: _, [] => rfl
  | y :: ys, x :: xs => by
    have ih := pair_ints ys xs
    unfold pairUp at ih ⊢
    rw [List.map_cons, List.map_cons, List.zip_cons_cons, List.map_cons]
    show (colon y.1 <$> valueAs PrimType.int.typeName (.mk (.int x.2) []) >>= fun a => all _ >>= fun as => pure (a :: as)) = _
    rw [ih, show valueAs PrimType.int.typeName (.mk (.int x.2) []) = .ok (decimal x.2) from rfl]
    rfl

private theorem ints_primitive (xs : List (Str × Int)) : OnlyPrimitives (intMembers xs) := by
  intro m hm
  obtain ⟨x, -, rfl⟩ := List.mem_map.mp hm
  exact ⟨.int, rfl, by decide⟩

/-- **C38, objects of integers**: the names in alphabetical order are shown with the values in the order of writing. -/
theorem C38_ints (leftFirst : Bool) (n f : Str) (xs ys : List (Str × Int)) (hp : ys.Perm xs) (hs : ys.Pairwise fun a b => strLt a.1 b.1 = true)
    (hn : n ∉ readable) (hk : n ≠ keyType) :
    ∃ node, serialise (.comp n f (intMembers xs)) = .ok [node] ∧ ∀ c : Cursor, c.cur = some node →
      inspect leftFirst c = (.ok ("{ Parsed : ".toList ++ braces (List.zipWith (fun y x => colon y.1 (decimal x.2)) ys xs) ++ " }".toList), c) := by
  obtain ⟨node, qs, h1, h2, h3⟩ := C38_flat leftFirst n f (intMembers xs) (ints_primitive xs) hn hk
  refine ⟨node, h1, fun c hc => ?_⟩
  rw [h3 c hc, alphabet_unique h2 (int_alphabet hp hs)]
  unfold flatInspection
  rw [intMembers_trees, pair_ints]
  rfl

private theorem decimal_comma (k : Int) : ',' ∉ decimal k := by
  have hd : ∀ d, d < 10 → digit d ≠ ',' := by decide
  have hn : ∀ m, ',' ∉ decimalNat m := by
    intro m
    induction m using Nat.strongRecOn with
    | _ m ih =>
      rw [decimalNat]
      split
      · rename_i h
        simpa using (hd m h).symm
      · intro h
        rcases List.mem_append.mp h with h | h
        · exact ih (m / 10) (by omega) h
        · have := (hd (m % 10) (by omega)).symm
          simp at h
          exact this h
  unfold decimal
  split
  · intro h
    rcases List.mem_cons.mp h with h | h
    · exact absurd h (by decide)
    · exact hn _ h
  · exact hn _

private theorem split_at_comma : ∀ {a b r s : Str}, ',' ∉ a → ',' ∉ b → a ++ ',' :: r = b ++ ',' :: s → a = b ∧ r = s
  | [], [], _, _, _, _, h => ⟨rfl, by simpa using h⟩
  | [], y :: b, _, _, _, hb, h => by
    simp only [List.nil_append, List.cons_append, List.cons.injEq] at h
    exact absurd (h.1 ▸ List.mem_cons_self) hb
  | x :: a, [], _, _, ha, _, h => by
    simp only [List.nil_append, List.cons_append, List.cons.injEq] at h
    exact absurd (h.1 ▸ List.mem_cons_self) ha
  | x :: a, y :: b, r, s, ha, hb, h => by
    simp only [List.cons_append, List.cons.injEq] at h
    obtain ⟨h1, h2⟩ := split_at_comma (fun hx => ha (List.mem_cons_of_mem _ hx)) (fun hx => hb (List.mem_cons_of_mem _ hx)) h.2
    exact ⟨by rw [h.1, h1], h2⟩

private theorem commas_two (a b : Str) (l : List Str) : commas (a :: b :: l) = a ++ ',' :: ' ' :: commas (b :: l) := by
  simp [commas, List.intercalate_cons_cons, List.append_assoc]

private theorem colon_cancel {a b c : Str} {r s : Str} (h : colon a b ++ r = colon a c ++ s) : b ++ r = c ++ s := by
  unfold colon at h
  rw [List.append_assoc (a ++ _), List.append_assoc (a ++ _)] at h
  exact List.append_cancel_left h

private theorem commas_ints : ∀ (l : List (Str × Int × Int)), commas (l.map fun x => colon x.1 (decimal x.2.1)) = commas (l.map fun x => colon x.1 (decimal x.2.2)) →
    l.map (·.2.1) = l.map (·.2.2)
  | [], _ => rfl
  | [x], h => by
    have h' : colon x.1 (decimal x.2.1) ++ [] = colon x.1 (decimal x.2.2) ++ [] := by simpa [commas] using h
    have := colon_cancel h'
    rw [List.append_nil, List.append_nil] at this
    simp [decimal_inj this]
  | x :: y :: l, h => by
    simp only [List.map_cons, commas_two] at h
    obtain ⟨h1, h2⟩ := split_at_comma (decimal_comma _) (decimal_comma _) (colon_cancel h)
    have ih := commas_ints (y :: l) (List.cons.inj h2).2
    rw [List.map_cons, List.map_cons (f := fun x : Str × Int × Int => x.2.2), ih, decimal_inj h1]

/-- **C38, exactly**: an object of integers is shown with each value beside its own name if, and only if, the values are in the same order whether the properties are
taken in the order of writing or of the alphabet. -/
theorem C38_ints_exact (leftFirst : Bool) (n f : Str) (xs ys : List (Str × Int)) (hp : ys.Perm xs) (hs : ys.Pairwise fun a b => strLt a.1 b.1 = true)
    (hn : n ∉ readable) (hk : n ≠ keyType) (node : Node) (hw : serialise (.comp n f (intMembers xs)) = .ok [node]) (c : Cursor) (hc : c.cur = some node) :
    (inspect leftFirst c).1 = .ok ("{ Parsed : ".toList ++ braces (ys.map fun y => colon y.1 (decimal y.2)) ++ " }".toList)
      ↔ xs.map (·.2) = ys.map (·.2) := by
  obtain ⟨node', h1, h2⟩ := C38_ints leftFirst n f xs ys hp hs hn hk
  rw [hw] at h1
  simp only [Res.ok.injEq, List.cons.injEq, and_true] at h1
  subst h1
  rw [h2 c hc]
  let l : List (Str × Int × Int) := List.zipWith (fun y x => (y.1, x.2, y.2)) ys xs
  have hz : ∀ (ys xs : List (Str × Int)), ys.length = xs.length →
      (List.zipWith (fun y x => (y.1, x.2, y.2)) ys xs : List (Str × Int × Int)).map (fun x => colon x.1 (decimal x.2.1)) = List.zipWith (fun y x => colon y.1 (decimal x.2)) ys xs
      ∧ (List.zipWith (fun y x => (y.1, x.2, y.2)) ys xs : List (Str × Int × Int)).map (fun x => colon x.1 (decimal x.2.2)) = ys.map (fun y => colon y.1 (decimal y.2))
      ∧ (List.zipWith (fun y x => (y.1, x.2, y.2)) ys xs : List (Str × Int × Int)).map (·.2.1) = xs.map (·.2)
      ∧ (List.zipWith (fun y x => (y.1, x.2, y.2)) ys xs : List (Str × Int × Int)).map (·.2.2) = ys.map (·.2) := by
    intro ys
    induction ys with
    | nil => intro xs h; cases xs <;> simp at h ⊢
    | cons y ys ih =>
      intro xs h
      cases xs with
      | nil => simp at h
      | cons x xs =>
        obtain ⟨a, b, c, d⟩ := ih xs (by simpa using h)
        simp only [List.zipWith_cons_cons, List.map_cons, a, b, c, d, and_self]
  obtain ⟨z1, z2, z3, z4⟩ := hz ys xs hp.length_eq
  rw [← z1, ← z2, ← z3, ← z4]
  constructor
  · intro h
    simp only [Res.ok.injEq] at h
    refine commas_ints l ?_
    have h3 := List.append_cancel_right h
    have h4 := List.append_cancel_left h3
    unfold braces at h4
    have h5 := List.append_cancel_right h4
    exact List.append_cancel_left h5
  · intro h
    have hl : ∀ l : List (Str × Int × Int), l.map (·.2.1) = l.map (·.2.2) → l.map (fun x => colon x.1 (decimal x.2.1)) = l.map (fun x => colon x.1 (decimal x.2.2)) := by
      intro l
      induction l with
      | nil => intro _; rfl
      | cons x l ih =>
        intro h
        simp only [List.map_cons, List.cons.injEq] at h ⊢
        exact ⟨by rw [h.1], ih h.2⟩
    rw [hl _ h]

/-- Three integers in the wrong order, and the same with an order that makes no difference. -/
example : (inspect true (written (.comp "net.Foo".toList "f".toList (intMembers [("c".toList, 1), ("a".toList, 2), ("b".toList, 3)])))).1
      = .ok "{ Parsed : { a : 1, b : 2, c : 3 } }".toList
    ∧ (inspect true (written (.comp "net.Foo".toList "f".toList (intMembers [("c".toList, 1), ("a".toList, 2), ("b".toList, 1)])))).1
      = .ok "{ Parsed : { a : 1, b : 2, c : 1 } }".toList := by decide +kernel

/-- A text and an integer in the wrong order: there is no text where one is expected.  Two numbers of different types: both are shown as zero. -/
example : (inspect true (written (.comp "net.Foo".toList "f".toList [.prim "b".toList false (.string "x".toList), .prim "a".toList false (.int 5)]))).1 = .throw "Expected a String but found"
    ∧ (inspect true (written (.comp "net.Foo".toList "f".toList [.prim "b".toList false (.long 7), .prim "a".toList false (.int 5)]))).1
      = .ok "{ Parsed : { a : 0, b : 0 } }".toList := by decide +kernel

#print axioms C38_flat
#print axioms C38_ints
#print axioms C38_ints_exact

end Corda.Props
