import Verif.Spec.Naming
import Verif.Lemmas.OffDiagonal
import Verif.Props.Programs

/-
C95: whether objects can be inspected depends on the names of their classes.
-/

namespace Corda.Props
open Corda Prog Spec

/-! ### Types that may refer to themselves -/

/-- The answers of a list of types about others. -/
private def others (xs : List TypeNotation) (a b : TypeNotation) : Int :=
  if a ∈ xs ∧ b ∈ xs ∧ a ≠ b then (if needs b a then 1 else if needs a b then 2 else 0) else 0

private def all (xs : List TypeNotation) (a b : TypeNotation) : Int :=
  if a ∈ xs ∧ b ∈ xs then (if needs b a then 1 else if needs a b then 2 else 0) else 0

private def needsOther (xs : List TypeNotation) (a b : TypeNotation) : Prop := a ∈ xs ∧ b ∈ xs ∧ a ≠ b ∧ needs a b = true

/-- The types arrive "transitively", or there are at most three of them and no cycle. -/
private def Settled (xs : List TypeNotation) : Prop :=
  (∀ pre x post, xs = pre ++ x :: post → ∀ d ∈ pre, ∀ n ∈ pre, needs d x = true → needs x n = true → needs d n = true)
  ∨ xs.length ≤ 3 ∧ ∀ a ∈ xs, ∀ b ∈ xs, ∀ c ∈ xs, a ≠ b → b ≠ c → c ≠ a →
      needs a b = true → needs b c = true → ¬ needs c a = true

private theorem settled_order (xs : List TypeNotation) (hn : xs.Nodup) (hreg : ∀ a ∈ xs, ∀ b ∈ xs, Regular a b)
    (hm : ∀ a ∈ xs, ∀ b ∈ xs, a ≠ b → ¬ (needs a b = true ∧ needs b a = true)) (hs : Settled xs) :
    ∃ r, insertAllR TypeNotation.dependsOn xs = .ok r ∧ r.flatten.Perm xs
      ∧ NeedsEarlier (fun a b => a ≠ b ∧ needs a b = true) r := by
  have hd : ∀ a b, a ∈ xs → b ∈ xs → a.dependsOn b = .ok (all xs a b) := by
    intro a b ha hb
    rw [dependsOn_regular a b (hreg a ha b hb)]
    simp [all, ha, hb]
  obtain ⟨r, h1, h2⟩ := insertAllR_of (S := (· ∈ xs)) hd xs (fun x hx => hx)
  have hp := (C11_schema_types xs r h1).1
  refine ⟨r, h1, hp, ?_⟩
  have hans : Answers (others xs) := by
    intro a b
    unfold others
    repeat' split
    all_goals simp
  have hoff : ∀ a b, a ≠ b → all xs a b = others xs a b := by
    intro a b hab
    simp [all, others, hab]
  rw [insertAll_congr hoff hans xs hn] at h2
  have hc : Consistent (others xs) (needsOther xs) := by
    intro a b
    unfold others needsOther
    by_cases ha : a ∈ xs <;> by_cases hb : b ∈ xs <;> by_cases hab : a = b <;> simp [ha, hb, hab]
    have := hm a ha b hb hab
    cases h1 : needs a b <;> cases h2 : needs b a <;> simp_all [Ne.symm hab]
    all_goals exact fun h => hab h.symm
  have key : NeedsEarlier (needsOther xs) r := by
    rcases hs with ht | ⟨hl, h3⟩
    · refine C13_order_partial (others xs) (needsOther xs) hc hans xs ?_ r h2
      intro pre x post e d hd n hn' h3 h4
      refine ⟨h3.1, h4.2.1, ?_, ht pre x post e d hd n hn' h3.2.2.2 h4.2.2.2⟩
      intro hdn
      subst hdn
      exact hm d h3.1 x h3.2.1 h3.2.2.1 ⟨h3.2.2.2, h4.2.2.2⟩
    · refine inOrder_needsEarlier _ _ (three_inOrder (others xs) (needsOther xs) hc hans ?_ xs hl r h2)
      intro a b c h4 h5 h6
      exact h3 a h4.1 b h4.2.1 c h5.2.1 h4.2.2.1 h5.2.2.1 h6.2.2.1 h4.2.2.2 h5.2.2.2 h6.2.2.2
  intro i j Li Lj hi hj a ha b hb hn
  refine key i j Li Lj hi hj a ha b hb ⟨hp.mem_iff.mp ?_, hp.mem_iff.mp ?_, hn⟩
  · exact List.mem_flatten.mpr ⟨Li, List.mem_of_getElem? hi, ha⟩
  · exact List.mem_flatten.mpr ⟨Lj, List.mem_of_getElem? hj, hb⟩

/-- **C13 for schema types that may refer to themselves, what does hold.** As `C13_schema_types_partial`, but a type may name itself, as
the nodes of a linked list do, if none occurs twice: every type comes strictly after everything else it names. -/
theorem C13_recursive_partial (xs : List TypeNotation) (hn : xs.Nodup) (hreg : ∀ a ∈ xs, ∀ b ∈ xs, Regular a b)
    (hm : ∀ a ∈ xs, ∀ b ∈ xs, a ≠ b → ¬ (needs a b = true ∧ needs b a = true))
    (ht : ∀ pre x post, xs = pre ++ x :: post → ∀ d ∈ pre, ∀ n ∈ pre,
      needs d x = true → needs x n = true → needs d n = true) :
    ∃ r, insertAllR TypeNotation.dependsOn xs = .ok r ∧ r.flatten.Perm xs
      ∧ NeedsEarlier (fun a b => a ≠ b ∧ needs a b = true) r :=
  settled_order xs hn hreg hm (.inl ht)

/-! ### From levels to readers -/

private theorem served_then (K : List Str) (a b : List TypeNotation) (ha : ∀ t ∈ a, ∀ K', K ⊆ K' → served K' t)
    (hb : ∀ K', K ⊆ K' → (∀ t ∈ a, t.name ∈ K') → Ordered K' b) : Ordered K (a ++ b) := by
  induction a generalizing K with
  | nil => exact hb K (fun _ h => h) (by simp)
  | cons t a ih =>
    refine ⟨.inr (ha t (by simp) K fun _ h => h), ih (t.name :: K) ?_ ?_⟩
    · intro u hu K' hK
      exact ha u (by simp [hu]) K' fun n hn => hK (List.mem_cons_of_mem _ hn)
    · intro K' hK hall
      refine hb K' (fun n hn => hK (List.mem_cons_of_mem _ hn)) ?_
      intro u hu
      rcases List.mem_cons.mp hu with rfl | hu
      · exact hK List.mem_cons_self
      · exact hall u hu

/-- If every type can be served by the types of earlier levels, the types are in order. -/
theorem ordered_levels (r : List (List TypeNotation)) (K : List Str)
    (h : ∀ (i : Nat) (L : List TypeNotation), r[i]? = some L → ∀ t ∈ L, ∀ K', K ⊆ K' →
      (∀ (j : Nat) (Lj : List TypeNotation), j < i → r[j]? = some Lj → ∀ u ∈ Lj, u.name ∈ K') → served K' t) : Ordered K r.flatten := by
  induction r generalizing K with
  | nil => trivial
  | cons l r ih =>
    rw [List.flatten_cons]
    refine served_then K l r.flatten ?_ ?_
    · intro t ht K' hK
      exact h 0 l rfl t ht K' hK (fun j Lj hj => absurd hj (Nat.not_lt_zero j))
    · intro K' hK hall
      refine ih K' ?_
      intro i L hi t ht K'' hK' hj
      refine h (i + 1) L (by simpa using hi) t ht K'' (fun n hn => hK' (hK hn)) ?_
      intro j Lj hlt hjl u hu
      cases j with
      | zero => simp at hjl; subst hjl; exact hK' (hall u hu)
      | succ j => exact hj j Lj (by omega) (by simpa using hjl) u hu

/-! ### Classes as types -/

/-- The field the library makes of a property. -/
private def fieldOf (p : PropDesc) : Field :=
  if p.type ∈ primNames then ⟨.primitive, p.name, p.type, [], [], [], p.mandatory, false, []⟩
  else ⟨.composite, p.name, p.type, [], [], [], p.mandatory, false, []⟩

private def typeOf (d : ClassDesc) : TypeNotation := .comp ⟨d.key.1, [], [], d.key.2, d.listed.map fieldOf⟩

private theorem fieldOf_name (p : PropDesc) : fieldTypeName (fieldOf p) = some p.type := by
  unfold fieldOf
  split <;> rfl

private theorem needs_typeOf (d e : ClassDesc) : needs (typeOf d) (typeOf e) = true ↔ uses d e := by
  unfold needs mentions typeOf uses TypeNotation.name
  simp only [List.any_map, List.any_eq_true, Function.comp, fieldOf_name, beq_iff_eq, Option.some.injEq, List.mem_map]

private theorem readable_prim {t : Str} (h : t ∈ readable) : t ∈ primNames := by
  have : ∀ t ∈ readable, t ∈ primNames := by decide +kernel
  exact this t h

private theorem make_field {ds : List ClassDesc} (hp : PlainClasses ds) {d : ClassDesc} (hd : d ∈ ds) {p : PropDesc} (hpd : p ∈ d.listed) :
    (propField p).make = .ok (fieldOf p) := by
  obtain ⟨hreq, ht⟩ := hp.types d hd p hpd
  unfold FieldDesc.make propField fieldOf
  simp only [hreq]
  by_cases hprim : p.type ∈ primNames
  · rw [if_pos hprim]
    unfold Field.make
    have hall : ∀ t ∈ primNames, typeIsPrimitive t = true := by decide +kernel
    rw [if_pos (hall p.type hprim)]
    rfl
  · rw [if_neg hprim]
    have hcl : ClassName p.type := by
      rcases ht with ht | ht
      · exact absurd (readable_prim ht) hprim
      · obtain ⟨e, he, hn⟩ := List.mem_map.mp ht
        exact hn ▸ hp.names e he
    have hub : ¬ ArrayUB p.type := by
      rintro (h | h | h)
      · exact hcl.longEnough.1 h
      · exact hcl.longEnough.2.1 h
      · exact hcl.longEnough.2.2 h
    have hk : fieldKind p.type [] = some .composite := by
      unfold fieldKind
      rw [if_neg hprim, if_neg hcl.notArray, if_neg hcl.notStar]
    rcases C17_field_classification_partial p.name p.type [] [] [] p.mandatory false hub hcl.small (by simp) [] rfl with ⟨h, -⟩ | ⟨k, h, hmk⟩
    · rw [hk] at h; cases h
    · rw [hk] at h
      cases h
      rw [hmk]
      rfl

private theorem inOrder_map {α β : Type} (f : α → Res β) (g : α → β) (l : List α) (h : ∀ a ∈ l, f a = .ok (g a)) :
    inOrder (l.map f) = .ok (l.map g) := by
  induction l with
  | nil => rfl
  | cons a l ih =>
    simp only [List.map_cons, inOrder, h a (by simp), ih (fun b hb => h b (by simp [hb])), Res.bind]

private theorem make_type {ds : List ClassDesc} (hp : PlainClasses ds) {d : ClassDesc} (hd : d ∈ ds) :
    (classType d).make = .ok (typeOf d) := by
  unfold classType
  rw [hp.composite d hd]
  simp only [TypeDesc.make, List.map_map]
  rw [inOrder_map (FieldDesc.make ∘ propField) fieldOf d.listed (fun p hpd => make_field hp hd hpd)]
  rfl

private theorem typeOf_inj {ds : List ClassDesc} (hp : PlainClasses ds) {d e : ClassDesc} (hd : d ∈ ds) (he : e ∈ ds)
    (h : typeOf d = typeOf e) : d = e := by
  refine hp.apart d hd e he (.inl ?_)
  have := congrArg TypeNotation.name h
  exact this

private theorem resolvable_typeOf (d : ClassDesc) : Resolvable ⟨d.key.1, [], [], d.key.2, d.listed.map fieldOf⟩ := by
  intro f hf
  obtain ⟨p, -, rfl⟩ := List.mem_map.mp hf
  refine ⟨p.type, ?_⟩
  unfold fieldOf
  split <;> rfl

private theorem flat_typeOf (d : ClassDesc) (n : Str) : Flat ⟨d.key.1, [], [], d.key.2, d.listed.map fieldOf⟩ n := by
  intro f hf h
  obtain ⟨p, -, rfl⟩ := List.mem_map.mp hf
  unfold fieldOf at h
  split at h <;> cases h

private theorem nodup_of {ds : List ClassDesc} (ha : InAlphabet ds) : ds.Nodup := by
  have := ha.classes
  refine this.imp ?_
  intro a b h e
  subst e
  rw [keyOrder.irrefl] at h
  cases h

private theorem keyLt_asymm (a b : Str × Str) (h : keyLt a b = true) : keyLt b a = false := by
  cases h2 : keyLt b a with
  | false => rfl
  | true =>
    have := keyOrder.trans _ _ _ h h2
    rw [keyOrder.irrefl] at this
    cases this

private theorem types_nodup {ds : List ClassDesc} (ha : InAlphabet ds) (hp : PlainClasses ds) : (ds.map typeOf).Nodup := by
  have := nodup_of ha
  rw [List.Nodup, List.pairwise_map]
  exact this.imp_of_mem fun {d e} hd he hne h => hne (typeOf_inj hp hd he h)

private theorem types_made {ds : List ClassDesc} (hp : PlainClasses ds) :
    (ds.map classType).map TypeDesc.make = (ds.map typeOf).map Res.ok := by
  rw [List.map_map, List.map_map]
  exact List.map_congr_left fun d hd => make_type hp hd

private theorem types_sound (leftFirst : Bool) {ds : List ClassDesc} (hp : PlainClasses ds) : Sound leftFirst (ds.map typeOf) := by
  refine ⟨?_, ?_, ?_, ?_, ?_⟩
  · intro t ht
    obtain ⟨d, hd, rfl⟩ := List.mem_map.mp ht
    refine ⟨fun h => (hp.names d hd).notPrimitive (readable_prim h), fun c hc f hf => ?_⟩
    cases hc
    obtain ⟨p, hpd, rfl⟩ := List.mem_map.mp hf
    refine ⟨?_, ⟨_, fieldOf_name p⟩, ?_⟩
    · unfold fieldOf
      split <;> simp
    · intro hk t ht hr
      rw [fieldOf_name] at ht
      cases ht
      unfold fieldOf at hk
      rw [if_pos (readable_prim hr)] at hk
      exact hk rfl
  · intro t ht
    obtain ⟨d, hd, rfl⟩ := List.mem_map.mp ht
    exact (hp.names d hd).notKey
  · intro t ht u hu he
    obtain ⟨d, hd, rfl⟩ := List.mem_map.mp ht
    obtain ⟨e, he', rfl⟩ := List.mem_map.mp hu
    exact congrArg typeOf (hp.apart d hd e he' (.inl he))
  · intro t ht u hu he
    obtain ⟨d, hd, rfl⟩ := List.mem_map.mp ht
    obtain ⟨e, he', rfl⟩ := List.mem_map.mp hu
    exact congrArg typeOf (hp.apart d hd e he' (.inr he))
  · intro r k v hr
    obtain ⟨d, -, h⟩ := List.mem_map.mp hr
    cases h

private theorem presentable_of (leftFirst : Bool) {ds : List ClassDesc} (ha : InAlphabet ds) (hp : PlainClasses ds) (hm : NotMutual ds)
    (hs : Settled (ds.map typeOf)) : Presentable leftFirst ds (ds.map typeOf) := by
  have hn := types_nodup ha hp
  refine ⟨ha, types_made hp, types_sound leftFirst hp, ?_⟩
  have hreg : ∀ a ∈ ds.map typeOf, ∀ b ∈ ds.map typeOf, Regular a b := by
    intro a ha b hb
    obtain ⟨d, -, rfl⟩ := List.mem_map.mp ha
    obtain ⟨e, -, rfl⟩ := List.mem_map.mp hb
    exact ⟨resolvable_typeOf d, resolvable_typeOf e, flat_typeOf d _, flat_typeOf e _⟩
  have hmt : ∀ a ∈ ds.map typeOf, ∀ b ∈ ds.map typeOf, a ≠ b → ¬ (needs a b = true ∧ needs b a = true) := by
    intro a ha b hb hab
    obtain ⟨d, hd, rfl⟩ := List.mem_map.mp ha
    obtain ⟨e, he, rfl⟩ := List.mem_map.mp hb
    rw [needs_typeOf, needs_typeOf]
    exact hm d hd e he fun h => hab (congrArg typeOf h)
  obtain ⟨r, h1, h2, h3⟩ := settled_order _ hn hreg hmt hs
  refine ⟨r, h1, ordered_levels r _ ?_⟩
  intro i L hi t ht K hK hearlier
  have hmem : t ∈ ds.map typeOf := h2.mem_iff.mp (List.mem_flatten.mpr ⟨L, List.mem_of_getElem? hi, ht⟩)
  obtain ⟨d, hd, rfl⟩ := List.mem_map.mp hmem
  intro f hf
  obtain ⟨p, hpd, rfl⟩ := List.mem_map.mp hf
  rcases (hp.types d hd p hpd).2 with hr | hcl
  · unfold fieldServed fieldOf
    rw [if_pos (readable_prim hr)]
    exact .inl hr
  · obtain ⟨e, he, hn'⟩ := List.mem_map.mp hcl
    have hnp : p.type ∉ primNames := hn' ▸ (hp.names e he).notPrimitive
    have : fieldTypeName (fieldOf p) = some p.type := fieldOf_name p
    unfold fieldServed
    have hk : (fieldOf p).kind = .composite := by unfold fieldOf; rw [if_neg hnp]
    rw [hk]
    refine ⟨p.type, this, ?_⟩
    by_cases hde : d = e
    · exact .inl (by rw [← hn', hde])
    · right
      have hmu : typeOf e ∈ r.flatten := h2.mem_iff.mpr (List.mem_map.mpr ⟨e, he, rfl⟩)
      obtain ⟨Lj, hLj, hmj⟩ := List.mem_flatten.mp hmu
      obtain ⟨j, hj⟩ := List.getElem?_of_mem hLj
      have hlt := h3 i j L Lj hi hj _ ht _ hmj ⟨fun h => hde (typeOf_inj hp hd he h), (needs_typeOf d e).mpr ?_⟩
      · rw [← hn']
        exact hearlier j Lj hlt hj _ hmj
      · unfold uses
        rw [hn']
        exact List.mem_map.mpr ⟨p, hpd, rfl⟩

mutual

private theorem showable_obj (ds : List ClassDesc) : ∀ o : Obj, PlainObj (ds.map fun e => e.key.1) o → Showable (ds.map typeOf) o
  | .comp _ _ ms, h => by
    unfold PlainObj at h
    unfold Showable
    exact showable_members ds ms h
  | .list _ _ _, h => by unfold PlainObj at h; exact h.elim
  | .map _ _ _, h => by unfold PlainObj at h; exact h.elim

private theorem showable_member (ds : List ClassDesc) :
    ∀ m : Member, PlainMember (ds.map fun e => e.key.1) m → ShowableMember (ds.map typeOf) m
  | .prim _ _ v, h => by unfold PlainMember at h; unfold ShowableMember; exact h
  | .nullPrim _ _, h => by unfold PlainMember at h; exact h.elim
  | .obj _ t _ o, h => by
    unfold PlainMember at h
    unfold ShowableMember
    exact ⟨h.1, showable_obj ds o h.2⟩
  | .nullObj _ t, h => by
    unfold PlainMember at h
    unfold ShowableMember
    obtain ⟨e, he, hn⟩ := List.mem_map.mp h
    exact ⟨_, List.mem_map.mpr ⟨e, he, rfl⟩, hn⟩

private theorem showable_members (ds : List ClassDesc) :
    ∀ ms : List Member, PlainMembers (ds.map fun e => e.key.1) ms → ShowableMembers (ds.map typeOf) ms
  | [], _ => by unfold ShowableMembers; trivial
  | m :: ms, h => by
    unfold PlainMembers at h
    unfold ShowableMembers
    exact ⟨showable_member ds m h.1, showable_members ds ms h.2⟩

end

/-- The object is serialised and inspecting the result shows it. -/
def IsShown (leftFirst : Bool) (o : Obj) : Prop :=
  ∃ n, serialise o = .ok [n] ∧ ∀ c : Cursor, c.cur = some n → inspect leftFirst c = (.ok (parsedText (objVal o)), c)

private theorem shown_of (leftFirst : Bool) {ds : List ClassDesc} (ha : InAlphabet ds) (hp : PlainClasses ds) (hm : NotMutual ds)
    (hs : Settled (ds.map typeOf)) {o : Obj} (hc : Conforms ds o) (hv : PlainObj (ds.map fun e => e.key.1) o) : IsShown leftFirst o :=
  C75_conforming (presentable_of leftFirst ha hp hm hs) hc (showable_obj ds o hv)

private theorem pre_lt {ds pre post : List ClassDesc} {x : ClassDesc} (ha : InAlphabet ds) (h : ds = pre ++ x :: post) :
    ∀ d ∈ pre, keyLt d.key x.key = true := by
  intro d hd
  have := ha.classes
  rw [h, List.pairwise_append] at this
  exact this.2.2 d hd x (by simp)

private theorem map_split {α β : Type} {f : α → β} {l : List α} {pre : List β} {x : β} {post : List β} (h : l.map f = pre ++ x :: post) :
    ∃ pre' x' post', l = pre' ++ x' :: post' ∧ pre = pre'.map f ∧ x = f x' := by
  obtain ⟨a, b, h1, h2, h3⟩ := List.map_eq_append_iff.mp h
  obtain ⟨c, d, h4, h5, h6⟩ := List.map_eq_cons_iff.mp h3
  subst h4
  exact ⟨a, c, d, h1, h2.symm, h5.symm⟩

/-- **C95, what does hold.** Take any classes with members of primitive types and of these classes, no two of which use each other.  If, among
classes with names before that of `x`, each that uses `x` also uses each that `x` uses, then every object of these classes, however large,
can be serialised and is shown by the inspector.  What is missing: other names for the same classes, for which it is false
(`C95_names_violated`). -/
theorem C95_names_partial (leftFirst : Bool) {ds : List ClassDesc} (ha : InAlphabet ds) (hp : PlainClasses ds) (hm : NotMutual ds)
    (ht : ∀ d ∈ ds, ∀ x ∈ ds, ∀ n ∈ ds, keyLt d.key x.key = true → keyLt n.key x.key = true → uses d x → uses x n → uses d n)
    {o : Obj} (hc : Conforms ds o) (hv : PlainObj (ds.map fun e => e.key.1) o) : IsShown leftFirst o := by
  refine shown_of leftFirst ha hp hm (.inl ?_) hc hv
  intro pre x post h d hd n hn h1 h2
  obtain ⟨pre', x', post', e1, rfl, rfl⟩ := map_split h
  obtain ⟨d', hd', rfl⟩ := List.mem_map.mp hd
  obtain ⟨n', hn', rfl⟩ := List.mem_map.mp hn
  rw [needs_typeOf] at h1 h2 ⊢
  have hmem : ∀ y ∈ pre', y ∈ ds := fun y hy => by rw [e1]; simp [hy]
  exact ht d' (hmem d' hd') x' (by rw [e1]; simp) n' (hmem n' hn') (pre_lt ha e1 d' hd') (pre_lt ha e1 n' hn') h1 h2

/-- Instance: each class has a name after the names of the classes it uses. -/
theorem C95_needed_first_partial (leftFirst : Bool) {ds : List ClassDesc} (ha : InAlphabet ds) (hp : PlainClasses ds)
    (ht : ∀ d ∈ ds, ∀ e ∈ ds, uses d e → d = e ∨ keyLt e.key d.key = true)
    {o : Obj} (hc : Conforms ds o) (hv : PlainObj (ds.map fun e => e.key.1) o) : IsShown leftFirst o := by
  refine C95_names_partial leftFirst ha hp ?_ ?_ hc hv
  · rintro d hd e he hde ⟨h1, h2⟩
    have h3 := (ht d hd e he h1).resolve_left hde
    have h4 := (ht e he d hd h2).resolve_left (Ne.symm hde)
    rw [keyLt_asymm _ _ h3] at h4
    cases h4
  · intro d hd x hx n hn h1 h2 h3 h4
    rcases ht d hd x hx h3 with h | h
    · subst h; exact h4
    · rw [keyLt_asymm _ _ h] at h1
      cases h1

/-- Instance: each class has a name before the names of the classes it uses. -/
theorem C95_users_first_partial (leftFirst : Bool) {ds : List ClassDesc} (ha : InAlphabet ds) (hp : PlainClasses ds)
    (ht : ∀ d ∈ ds, ∀ e ∈ ds, uses d e → d = e ∨ keyLt d.key e.key = true)
    {o : Obj} (hc : Conforms ds o) (hv : PlainObj (ds.map fun e => e.key.1) o) : IsShown leftFirst o := by
  refine C95_names_partial leftFirst ha hp ?_ ?_ hc hv
  · rintro d hd e he hde ⟨h1, h2⟩
    have h3 := (ht d hd e he h1).resolve_left hde
    have h4 := (ht e he d hd h2).resolve_left (Ne.symm hde)
    rw [keyLt_asymm _ _ h3] at h4
    cases h4
  · intro d hd x hx n hn h1 h2 h3 h4
    rcases ht x hx n hn h4 with h | h
    · subst h; exact h3
    · rw [keyLt_asymm _ _ h] at h2
      cases h2

/-! ### Classes that use each other -/

/-- The object is serialised and inspecting the result throws. -/
def IsRejected (leftFirst : Bool) (o : Obj) : Prop :=
  ∃ n, serialise o = .ok [n] ∧ ∀ c : Cursor, c.cur = some n → (inspect leftFirst c).1.Throws

private theorem plain_resolvable {t : TypeNotation} (h : PlainType t) : ∀ x, t = .comp x → Resolvable x := by
  intro x hx f hf
  obtain ⟨hc, ⟨n, hn⟩, -⟩ := h.2 x hx f hf
  unfold fieldTypeName at hn
  unfold Field.resolvedType
  cases hk : f.kind with
  | custom => exact absurd hk hc
  | restricted =>
    rw [hk] at hn
    simp only at hn ⊢
    cases hr : f.requires with
    | nil => rw [hr] at hn; simp at hn
    | cons r rs => exact ⟨r, rfl⟩
  | primitive => exact ⟨_, rfl⟩
  | array => exact ⟨_, rfl⟩
  | composite => exact ⟨_, rfl⟩

/-- Either the types are in order and the object is shown, or they are not and inspecting throws. -/
private theorem settled (leftFirst : Bool) {ds : List ClassDesc} {ts : List TypeNotation} (ha : InAlphabet ds)
    (hmade : (ds.map classType).map TypeDesc.make = ts.map Res.ok) (hsound : Sound leftFirst ts) {o : Obj} (hc : Conforms ds o)
    (hv : Showable ts o) :
    ∃ ls, insertAllR TypeNotation.dependsOn ts = .ok ls ∧ (Ordered [publicKeyType] ls.flatten ∧ IsShown leftFirst o
      ∨ ¬ Ordered [publicKeyType] ls.flatten ∧ IsRejected leftFirst o) := by
  obtain ⟨ls, hl⟩ := collect_ok ts fun x hx => plain_resolvable (hsound.plain _ hx) x rfl
  have hperm := (C11_schema_types _ ls hl).1
  refine ⟨ls, hl, ?_⟩
  by_cases ho : Ordered [publicKeyType] ls.flatten
  · exact .inl ⟨ho, C75_conforming ⟨ha, hmade, hsound, ls, hl, ho⟩ hc hv⟩
  · refine .inr ⟨ho, ?_⟩
    obtain ⟨hd, hn, -, -⟩ := conforms_describes hc ha
    obtain ⟨ns, hs⟩ := C30_succeeds o hn (showable_prints o hv)
    obtain ⟨ts', rfl⟩ := C30_blob o ns hs
    refine ⟨_, hs, fun c hcur => ?_⟩
    rcases serialise_eq o with ⟨es, he, -, h1⟩ | ⟨-, h1⟩ | ⟨-, h1⟩
    · have := describes_unique he hd
      subst this
      rw [h1] at hs
      simp only [Res.ok.injEq, List.cons.injEq, and_true] at hs
      rw [← hs] at hcur
      have hr := open_written o es _ hmade c hcur
      rw [hl] at hr
      simp only [Res.bind] at hr
      have hproc := (C44_missing_reported_partial leftFirst (Schema.make ls) (Factory.empty.installCustom 0 publicKeyType)
        (sane_install sane_empty 0 publicKeyType) (by
          rw [schema_make_types]
          exact fun t ht => hsound.plain t (hperm.mem_iff.mp ht))).2.2
      rw [schema_make_types, names_inspector] at hproc
      have hth := hproc.mpr ho
      unfold inspect dumpContents
      rw [hr]
      simp only
      cases hx : FProg.process leftFirst (Schema.make ls) (Factory.empty.installCustom 0 publicKeyType) with
      | mk r F' =>
        rw [hx] at hth
        cases r with
        | throw m => trivial
        | ok _ => exact hth.elim
        | ub _ => exact hth.elim
    · rw [h1] at hs; simp at hs
    · rw [h1] at hs; simp at hs

/-- Nothing is both. -/
private theorem not_both {leftFirst : Bool} {o : Obj} (h : IsShown leftFirst o) : ¬ IsRejected leftFirst o := by
  rintro ⟨m, h3, h4⟩
  obtain ⟨n, h1, h2⟩ := h
  have e := h1.symm.trans h3
  simp only [Res.ok.injEq, List.cons.injEq, and_true] at e
  subst e
  have := h4 (Cursor.root n) rfl
  rw [h2 (Cursor.root n) rfl] at this
  exact this

/-- **C95, the library's order decides.** Take any classes, also lists and maps, the library can make types of, and any object of them each
part of which has a text.  It is shown just if the library's order of the types has everything a type needs before it; otherwise
inspecting it throws. -/
theorem C95_order_decides (leftFirst : Bool) {ds : List ClassDesc} {ts : List TypeNotation} (ha : InAlphabet ds)
    (hm : (ds.map classType).map TypeDesc.make = ts.map Res.ok) (hs : Sound leftFirst ts) {o : Obj} (hc : Conforms ds o)
    (hv : Showable ts o) :
    ∃ ls, insertAllR TypeNotation.dependsOn ts = .ok ls ∧ (IsShown leftFirst o ↔ Ordered [publicKeyType] ls.flatten)
      ∧ (IsRejected leftFirst o ↔ ¬ Ordered [publicKeyType] ls.flatten) := by
  obtain ⟨ls, hl, ⟨h1, h2⟩ | ⟨h1, h2⟩⟩ := settled leftFirst ha hm hs hc hv
  · exact ⟨ls, hl, ⟨fun _ => h1, fun _ => h2⟩, ⟨fun h => absurd h (not_both h2), fun h => absurd h1 h⟩⟩
  · exact ⟨ls, hl, ⟨fun h => absurd h2 (not_both h), fun h => absurd h h1⟩, ⟨fun _ => h1, fun _ => h2⟩⟩

/-- **C95, never undefined.** Whatever the names and whatever the classes use: each object of them is shown, or inspecting it throws. -/
theorem C95_shown_or_rejected (leftFirst : Bool) {ds : List ClassDesc} {ts : List TypeNotation} (ha : InAlphabet ds)
    (hm : (ds.map classType).map TypeDesc.make = ts.map Res.ok) (hs : Sound leftFirst ts) {o : Obj} (hc : Conforms ds o)
    (hv : Showable ts o) : IsShown leftFirst o ∨ IsRejected leftFirst o := by
  obtain ⟨ls, -, ⟨-, h⟩ | ⟨-, h⟩⟩ := settled leftFirst ha hm hs hc hv
  · exact .inl h
  · exact .inr h

private theorem ordered_index {K : List Str} {l : List TypeNotation} (h : Ordered K l) {i : Nat} {t : TypeNotation} (hi : l[i]? = some t) :
    ∃ K', (∀ n ∈ K', n ∈ K ∨ ∃ (j : Nat) (u : TypeNotation), j < i ∧ l[j]? = some u ∧ u.name = n) ∧ (t.name ∈ K' ∨ served K' t) := by
  induction l generalizing K i with
  | nil => simp at hi
  | cons a l ih =>
    obtain ⟨h1, h2⟩ := h
    cases i with
    | zero =>
      simp at hi
      subst hi
      exact ⟨K, fun n hn => .inl hn, h1⟩
    | succ i =>
      obtain ⟨K', h3, h4⟩ := ih h2 (by simpa using hi)
      refine ⟨K', fun n hn => ?_, h4⟩
      rcases h3 n hn with h5 | ⟨j, u, h5, h6, h7⟩
      · rcases List.mem_cons.mp h5 with rfl | h5
        · exact .inr ⟨0, a, by omega, rfl, rfl⟩
        · exact .inl h5
      · exact .inr ⟨j + 1, u, by omega, by simpa using h6, h7⟩

/-- `t` names the other type `u`. -/
def NeedsOther (ts : List TypeNotation) (t u : TypeNotation) : Prop := t ∈ ts ∧ u ∈ ts ∧ t ≠ u ∧ needs t u = true

private theorem served_needs {lf : Bool} {ts : List TypeNotation} (hs : Sound lf ts) {K : List Str} {t u : TypeNotation} (h : NeedsOther ts t u)
    (hv : served K t) : u.name ∈ K := by
  obtain ⟨ht, hu, hne, hn⟩ := h
  have hnr := (hs.plain u hu).1
  have hname : t.name ≠ u.name := fun e => hne (hs.names t ht u hu e)
  unfold needs mentions at hn
  unfold served at hv
  cases t with
  | comp c =>
    simp only [List.any_eq_true, beq_iff_eq] at hn hv
    obtain ⟨f, hf, hfn⟩ := hn
    have hsf := hv f hf
    unfold fieldServed at hsf
    have hother : (∃ t, fieldTypeName f = some t ∧ (t = c.name ∨ t ∈ K)) → u.name ∈ K := by
      rintro ⟨t, h1, h2⟩
      rw [hfn] at h1
      cases h1
      exact h2.resolve_left fun e => hname e.symm
    cases hk : f.kind with
    | primitive =>
      rw [hk] at hsf
      have : f.type = u.name := by unfold fieldTypeName at hfn; rw [hk] at hfn; simpa using hfn
      rw [this] at hsf
      exact hsf.resolve_left hnr
    | custom => rw [hk] at hsf; exact hother hsf
    | restricted => rw [hk] at hsf; exact hother hsf
    | array => rw [hk] at hsf; exact hother hsf
    | composite => rw [hk] at hsf; exact hother hsf
  | restr r =>
    simp only at hn hv
    cases hk : r.kind with
    | list l =>
      rw [hk] at hn hv
      rw [beq_iff_eq.mp hn] at hv
      exact hv.resolve_left hnr
    | array l =>
      rw [hk] at hn hv
      rw [beq_iff_eq.mp hn] at hv
      exact hv.resolve_left hnr
    | map k v =>
      rw [hk] at hn hv
      simp only [Bool.or_eq_true, beq_iff_eq] at hn
      rcases hn with rfl | rfl
      · exact hv.1.resolve_left hnr
      · exact hv.2.resolve_left hnr
    | enum cs => rw [hk] at hn; cases hn

private theorem before {lf : Bool} {ts : List TypeNotation} (hs : Sound lf ts) {l : List TypeNotation} (hl : ∀ t ∈ l, t ∈ ts)
    (ho : Ordered [publicKeyType] l) {t u : TypeNotation} (h : NeedsOther ts t u) (i : Nat) (hi : l[i]? = some t) :
    ∃ j : Nat, j < i ∧ l[j]? = some u := by
  induction i using Nat.strongRecOn with
  | ind i ih =>
    obtain ⟨K', h1, h2⟩ := ordered_index ho hi
    have earlier : ∀ x ∈ ts, x.name ∈ K' → ∃ j : Nat, j < i ∧ l[j]? = some x := by
      intro x hx hxK
      rcases h1 _ hxK with h3 | ⟨j, v, h3, h4, h5⟩
      · exact absurd (List.mem_singleton.mp h3) (hs.notCustom x hx)
      · exact ⟨j, h3, by rw [h4, hs.names v (hl v (List.mem_of_getElem? h4)) x hx h5]⟩
    rcases h2 with h2 | h2
    · obtain ⟨j, h3, h4⟩ := earlier t h.1 h2
      obtain ⟨k, h5, h6⟩ := ih j h3 h4
      exact ⟨k, by omega, h6⟩
    · exact earlier u h.2.1 (served_needs hs h h2)

/-- **C95, no names help.** If a type needs itself by way of other types, no object of these classes is shown, whatever they are called:
inspecting it throws.  An example are trees whose nodes have a list of nodes. -/
theorem C95_cycle_rejected (leftFirst : Bool) {ds : List ClassDesc} {ts : List TypeNotation} (ha : InAlphabet ds)
    (hm : (ds.map classType).map TypeDesc.make = ts.map Res.ok) (hs : Sound leftFirst ts) {o : Obj} (hc : Conforms ds o)
    (hv : Showable ts o) (t : TypeNotation) (hcyc : Relation.TransGen (NeedsOther ts) t t) : IsRejected leftFirst o := by
  obtain ⟨ls, hl, ⟨ho, -⟩ | ⟨-, h⟩⟩ := settled leftFirst ha hm hs hc hv
  · exfalso
    have hperm := (C11_schema_types _ ls hl).1
    have hmem : ∀ t ∈ ls.flatten, t ∈ ts := fun t ht => hperm.mem_iff.mp ht
    have step : ∀ u, Relation.TransGen (NeedsOther ts) t u → ∀ i : Nat, ls.flatten[i]? = some t →
        ∃ j : Nat, j < i ∧ ls.flatten[j]? = some u := by
      intro u h
      induction h with
      | single h => exact fun i hi => before hs hmem ho h i hi
      | tail _ h ih =>
        intro i hi
        obtain ⟨j, h1, h2⟩ := ih i hi
        obtain ⟨k, h3, h4⟩ := before hs hmem ho h j h2
        exact ⟨k, by omega, h4⟩
    have none : ∀ i : Nat, ls.flatten[i]? ≠ some t := by
      intro i
      induction i using Nat.strongRecOn with
      | ind i ih =>
        intro hi
        obtain ⟨j, h1, h2⟩ := step t hcyc i hi
        exact ih j h1 h2
    have ht : t ∈ ts := by
      cases hcyc with
      | single h => exact h.1
      | tail _ h => exact h.2.1
    obtain ⟨i, hi⟩ := List.getElem?_of_mem (hperm.mem_iff.mpr ht)
    exact none i hi
  · exact h

/-- `d` has a property of the other class `e`. -/
def UsesOther (ds : List ClassDesc) (d e : ClassDesc) : Prop := d ∈ ds ∧ e ∈ ds ∧ d ≠ e ∧ uses d e

private theorem uses_needs {ds : List ClassDesc} (hp : PlainClasses ds) {d e : ClassDesc} (h : Relation.TransGen (UsesOther ds) d e) :
    Relation.TransGen (NeedsOther (ds.map typeOf)) (typeOf d) (typeOf e) := by
  have one : ∀ {a b}, UsesOther ds a b → NeedsOther (ds.map typeOf) (typeOf a) (typeOf b) := fun {a b} h =>
    ⟨List.mem_map.mpr ⟨a, h.1, rfl⟩, List.mem_map.mpr ⟨b, h.2.1, rfl⟩, fun e => h.2.2.1 (typeOf_inj hp h.1 h.2.1 e),
      (needs_typeOf a b).mpr h.2.2.2⟩
  induction h with
  | single h => exact .single (one h)
  | tail _ h ih => exact .tail ih (one h)

/-- The same for plain classes. -/
theorem C95_plain_cycle_rejected (leftFirst : Bool) {ds : List ClassDesc} (ha : InAlphabet ds) (hp : PlainClasses ds) {o : Obj}
    (hc : Conforms ds o) (hv : PlainObj (ds.map fun e => e.key.1) o) (d : ClassDesc) (hcyc : Relation.TransGen (UsesOther ds) d d) :
    IsRejected leftFirst o :=
  C95_cycle_rejected leftFirst ha (types_made hp) (types_sound leftFirst hp) hc (showable_obj ds o hv) _ (uses_needs hp hcyc)

/-- **C95, up to three classes**: whatever their names, the object is shown just if no class uses itself by way of others. -/
theorem C95_three (leftFirst : Bool) {ds : List ClassDesc} (ha : InAlphabet ds) (hp : PlainClasses ds) (hl : ds.length ≤ 3) {o : Obj}
    (hc : Conforms ds o) (hv : PlainObj (ds.map fun e => e.key.1) o) :
    IsShown leftFirst o ↔ ∀ d, ¬ Relation.TransGen (UsesOther ds) d d := by
  constructor
  · intro h d hcyc
    exact not_both h (C95_plain_cycle_rejected leftFirst ha hp hc hv d hcyc)
  · intro hno
    refine shown_of leftFirst ha hp ?_ (.inr ⟨by simpa using hl, ?_⟩) hc hv
    · rintro d hd e he hde ⟨h1, h2⟩
      exact hno d (.tail (.single ⟨hd, he, hde, h1⟩) ⟨he, hd, Ne.symm hde, h2⟩)
    · intro a ha b hb c hc hab hbc hca h1 h2 h3
      obtain ⟨a, ha', rfl⟩ := List.mem_map.mp ha
      obtain ⟨b, hb', rfl⟩ := List.mem_map.mp hb
      obtain ⟨c, hc', rfl⟩ := List.mem_map.mp hc
      rw [needs_typeOf] at h1 h2 h3
      exact hno a (.tail (.tail (.single ⟨ha', hb', fun h => hab (congrArg typeOf h), h1⟩)
        ⟨hb', hc', fun h => hbc (congrArg typeOf h), h2⟩) ⟨hc', ha', fun h => hca (congrArg typeOf h), h3⟩)

/-- A person with a dog with an owner cannot be inspected, whatever the classes are called. -/
example :
    let o (a b : String) : Obj := .comp a.toList "fp1".toList [.obj "dog".toList b.toList false
      (.comp b.toList "fp2".toList [.nullObj "owner".toList a.toList])]
    (inspect true (written (o "net.Person" "net.Dog"))).1 = .throw "Can't find"
      ∧ (inspect true (written (o "net.Dog" "net.Person"))).1 = .throw "Can't find" := by
  decide +kernel

/-- A tree whose nodes have a list of nodes cannot be inspected either; neither can one with no list in it. -/
example :
    let list : Str := "java.util.List<net.Node>".toList
    let leaf : Obj := .comp "net.Node".toList "fpNode".toList [.nullObj "children".toList list]
    let tree : Obj := .comp "net.Node".toList "fpNode".toList [.obj "children".toList list false (.list list "fpList".toList [.obj leaf, .obj leaf])]
    (inspect true (written tree)).1.Throws ∧ (inspect true (written leaf)).1.Throws := by
  decide +kernel

/-! ### The other names -/

mutual

private theorem objVal_rename (f : Str → Str) : ∀ o : Obj, objVal (rename f o) = objVal o
  | .comp n fp ms => by
    unfold rename objVal
    obtain ⟨h1, h2⟩ := memberVals_rename f ms
    rw [h1, h2]
  | .list n fp es => by unfold rename; rfl
  | .map n fp es => by unfold rename; rfl

private theorem memberVals_rename (f : Str → Str) : ∀ ms : List Member,
    (renameMembers f ms).map memberName = ms.map memberName ∧ memberVals (renameMembers f ms) = memberVals ms
  | [] => by unfold renameMembers; exact ⟨rfl, rfl⟩
  | .prim n p v :: ms => by
    unfold renameMembers renameMember memberVals
    obtain ⟨h1, h2⟩ := memberVals_rename f ms
    simp only [List.map_cons, memberName, h1, h2, and_self]
  | .nullPrim n t :: ms => by
    unfold renameMembers renameMember memberVals
    obtain ⟨h1, h2⟩ := memberVals_rename f ms
    simp only [List.map_cons, memberName, h1, h2, and_self]
  | .obj n t p o :: ms => by
    unfold renameMembers renameMember memberVals
    obtain ⟨h1, h2⟩ := memberVals_rename f ms
    simp only [List.map_cons, memberName, memberVal, objVal_rename f o, h1, h2, and_self]
  | .nullObj n t :: ms => by
    unfold renameMembers renameMember memberVals
    obtain ⟨h1, h2⟩ := memberVals_rename f ms
    simp only [List.map_cons, memberName, memberVal, h1, h2, and_self]

end

/-- Names of classes do not occur in the text: if an object is shown under both names, the text is the same. -/
theorem C95_same_text (f : Str → Str) (o : Obj) : parsedText (objVal (rename f o)) = parsedText (objVal o) := by
  rw [objVal_rename]

/-- An order with a customer, who has an address in a city. -/
def order : Obj :=
  .comp "net.Order".toList "fpOrder".toList [.obj "customer".toList "net.Person".toList false
    (.comp "net.Person".toList "fpPerson".toList [.obj "address".toList "net.Address".toList false
      (.comp "net.Address".toList "fpAddress".toList [.obj "city".toList "net.City".toList false
        (.comp "net.City".toList "fpCity".toList [.prim "name".toList false (.string "Oslo".toList)])])])]

/-- `net.Person` is called `net.Client` instead. -/
def client (n : Str) : Str := if n = "net.Person".toList then "net.Client".toList else n

/-- **C95 fails as stated.** An order with a customer with an address in a city cannot be inspected when the customer's class is called
`net.Person`: the inspector says it cannot find a type that is in the schema.  Called `net.Client` it is shown. -/
theorem C95_names_violated :
    (inspect true (written order)).1 = .throw "Can't find"
    ∧ (inspect true (written (rename client order))).1 = .ok (parsedText (objVal order)) := by
  decide +kernel

example : parsedText (objVal order) = "{ Parsed : { customer : { address : { city : { name : \"Oslo\" } } } } }".toList := by decide +kernel

/-- Four classes, each with a member of the next. -/
def chain (a b c d : Str) : Obj :=
  .comp a "fp1".toList [.obj "x".toList b false (.comp b "fp2".toList [.obj "x".toList c false
    (.comp c "fp3".toList [.obj "x".toList d false (.comp d "fp4".toList [.prim "x".toList false (.int 1)])])])]

/-- All orders of four names. -/
def fourNames : List (Str × Str × Str × Str) :=
  let ns := ["A".toList, "B".toList, "C".toList, "D".toList]
  (ns.flatMap fun a => ns.flatMap fun b => ns.flatMap fun c => ns.map fun d => (a, b, c, d)).filter
    fun p => decide ([p.1, p.2.1, p.2.2.1, p.2.2.2].Nodup)

/-- **C95 fails as stated, for a quarter of the names**: of the ways to name four classes each of which has a member of the next,
just those fail that give the second class the last name. -/
theorem C95_chain_violated : fourNames.length = 24 ∧ ∀ p ∈ fourNames, (inspect true (written (chain p.1 p.2.1 p.2.2.1 p.2.2.2))).1 =
    if p.2.1 = "D".toList then .throw "Can't find" else .ok "{ Parsed : { x : { x : { x : { x : 1 } } } } }".toList := by
  decide +kernel

/-- **C95 fails as stated, with lists.** A list of objects with a member: in the package `com` it fails with those names, in `net` it is shown;
and an object with a list one level deeper the other way round. -/
theorem C95_lists_violated :
    let list (e : String) (o : Obj) : Obj := .list ("java.util.List<" ++ e ++ ">").toList "fpL".toList [.obj o]
    let inner (e : String) : Obj := .comp e.toList "fpE".toList [.prim "x".toList false (.int 1)]
    let first (a m e : String) : Obj := .comp a.toList "fpA".toList [.obj "l".toList ("java.util.List<" ++ m ++ ">").toList false
      (list m (.comp m.toList "fpM".toList [.obj "y".toList e.toList false (inner e)]))]
    let second (a m e : String) : Obj := .comp a.toList "fpA".toList [.obj "l".toList m.toList false
      (.comp m.toList "fpM".toList [.obj "y".toList ("java.util.List<" ++ e ++ ">").toList false (list e (inner e))])]
    (inspect true (written (first "com.A" "com.C" "com.B"))).1 = .throw "Missing type in serialisers map"
    ∧ (inspect true (written (first "net.A" "net.C" "net.B"))).1 = .ok "{ Parsed : { l : [ { y : { x : 1 } } ] } }".toList
    ∧ (inspect true (written (second "net.A" "net.C" "net.B"))).1 = .throw "Can't find"
    ∧ (inspect true (written (second "com.A" "com.C" "com.B"))).1 = .ok "{ Parsed : { l : { y : [ { x : 1 } ] } } }".toList := by
  decide +kernel

/-- The classes of a linked list of integers, one of whose members is of the class itself. -/
def linkClasses : List ClassDesc :=
  [⟨("net.Link".toList, "fpLink".toList), .inl [⟨"next".toList, "net.Link".toList, [], false⟩, ⟨"value".toList, "int".toList, [], false⟩]⟩]

/-- A chain of any length. -/
def links : List Int → Int → Obj
  | [], v => .comp "net.Link".toList "fpLink".toList [.nullObj "next".toList "net.Link".toList, .prim "value".toList false (.int v)]
  | w :: ws, v => .comp "net.Link".toList "fpLink".toList
      [.obj "next".toList "net.Link".toList true (links ws w), .prim "value".toList false (.int v)]

private theorem links_spec (ws : List Int) (v : Int) :
    (∀ u ∈ classes (links ws v), u ∈ linkClasses.map ClassDesc.use) ∧ (∀ d ∈ linkClasses, d.use ∈ classes (links ws v))
    ∧ (∀ a ∈ shapes (links ws v), (⟨a.1, .inl a.2⟩ : ClassDesc) ∈ linkClasses)
    ∧ PlainObj (linkClasses.map fun e => e.key.1) (links ws v) ∧ (links ws v).name = "net.Link".toList := by
  have hc : ((("net.Link".toList, "fpLink".toList), none) : ClassUse) ∈ linkClasses.map ClassDesc.use := List.mem_cons_self
  induction ws generalizing v with
  | nil =>
    unfold links
    refine ⟨?_, ?_, ?_, ?_, rfl⟩
    · intro u hu
      simp only [classes, classesMembers, classesMember, List.append_nil, List.mem_singleton] at hu
      exact hu ▸ hc
    · intro d hd
      rw [List.mem_singleton.mp hd]
      simp [classes, ClassDesc.use]
    · intro a ha
      simp only [shapes, shapesMembers, shapesMember, List.append_nil, List.mem_singleton] at ha
      subst ha
      exact List.mem_cons_self
    · simp only [PlainObj, PlainMembers, PlainMember, Prim.shows, and_true]
      exact List.mem_cons_self
  | cons w ws ih =>
    obtain ⟨h1, h2, h3, h4, h5⟩ := ih w
    unfold links
    refine ⟨?_, ?_, ?_, ?_, rfl⟩
    · intro u hu
      simp only [classes, classesMembers, classesMember, List.append_nil, List.mem_cons] at hu
      rcases hu with rfl | hu
      · exact hc
      · exact h1 u hu
    · intro d hd
      rw [List.mem_singleton.mp hd]
      simp [classes, ClassDesc.use]
    · intro a ha
      simp only [shapes, shapesMembers, shapesMember, List.append_nil, List.mem_cons] at ha
      rcases ha with rfl | ha
      · exact List.mem_cons_self
      · exact h3 a ha
    · simp only [PlainObj, PlainMembers, PlainMember, Prim.shows, and_true]
      exact ⟨h5.symm, h4⟩

private theorem link_name : ClassName "net.Link".toList :=
  ⟨by decide +kernel, by decide +kernel, by decide +kernel, by decide +kernel, by decide +kernel, by unfold Str.Small; decide +kernel⟩

/-- A linked list of any length is shown. -/
theorem C95_linked (leftFirst : Bool) (ws : List Int) (v : Int) : IsShown leftFirst (links ws v) := by
  obtain ⟨h1, h2, h3, h4, -⟩ := links_spec ws v
  refine C95_needed_first_partial leftFirst ((inAlphabet_iff _).1 (by decide +kernel)) ⟨?_, ?_, ?_, ?_⟩ ?_ ⟨h1, h2, h3⟩ h4
  · intro d hd
    rw [List.mem_singleton.mp hd]
    rfl
  · decide +kernel
  · intro d hd
    rw [List.mem_singleton.mp hd]
    exact link_name
  · intro d hd e he _
    rw [List.mem_singleton.mp hd, List.mem_singleton.mp he]
  · intro d hd e he _
    rw [List.mem_singleton.mp hd, List.mem_singleton.mp he]
    exact .inl rfl

example : parsedText (objVal (links [2, 3] 1)) =
    "{ Parsed : { next : { next : { next : <<NULL>>, value : 3 }, value : 2 }, value : 1 } }".toList := by decide +kernel

#print axioms C13_recursive_partial
#print axioms C95_names_partial
#print axioms C95_needed_first_partial
#print axioms C95_users_first_partial
#print axioms C95_order_decides
#print axioms C95_shown_or_rejected
#print axioms C95_plain_cycle_rejected
#print axioms C95_cycle_rejected
#print axioms C95_three
#print axioms C95_same_text
#print axioms C95_names_violated
#print axioms C95_chain_violated
#print axioms C95_lists_violated
#print axioms C95_linked

end Corda.Props
