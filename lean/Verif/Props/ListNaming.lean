import Verif.Props.Naming

/-
C13 and C95 for classes with lists and maps.
-/

namespace Corda.Props
open Corda Prog Spec

/-- A container field that is of the type `n` mentions `n`. -/
def Upright (c : Composite) (n : Str) : Prop :=
  ∀ f ∈ c.fields, f.AMQPType = .restricted_t → f.resolvedType = .ok n → n ∈ f.subTypes

/-- Pairs of types of which the dependency code misses at most what is inside a container. -/
def Fair : TypeNotation → TypeNotation → Prop
  | .comp x, .comp y => Resolvable x ∧ Resolvable y ∧ Upright x y.name ∧ Upright y x.name
  | a, b => Regular a b

private theorem anyDeep_reaches (n : Str) (fs : List Field) (h : ∀ f ∈ fs, ∃ t, f.resolvedType = .ok t) :
    anyDeep n fs = .ok (fs.any fun f => if f.AMQPType = .restricted_t then f.subTypes.contains n else fieldTypeName f == some n) := by
  induction fs with
  | nil => rfl
  | cons f fs ih =>
    have ih := ih fun f hf => h f (by simp [hf])
    obtain ⟨t, ht⟩ := h f (by simp)
    have hi := fieldTypeName_resolved f n ⟨t, ht⟩
    simp only [anyDeep, ht, Res.bind_eq, Res.bind, List.any_cons]
    by_cases hr : f.AMQPType = .restricted_t
    · simp only [hr, if_true]
      by_cases hn : n ∈ f.subTypes
      · simp [hn]
      · simp [hn, ih]
    · simp only [hr, if_false]
      by_cases hn : t = n
      · subst hn
        simp [hi.mpr ht]
      · have : (fieldTypeName f == some n) = false := by
          rw [← Bool.not_eq_true, hi, ht]; simpa using hn
        simp [hn, this, ih]

/-- The answer on a fair pair: 1 if the other type reaches this one, otherwise 2 if this one directly names the other, otherwise 0. -/
theorem dependsOn_fair (a b : TypeNotation) (h : Fair a b) :
    a.dependsOn b = .ok (if reaches b a then 1 else if needs a b then 2 else 0) := by
  cases a with
  | comp x => cases b with
    | comp y =>
      obtain ⟨h1, h2, -, -⟩ := h
      simp only [TypeNotation.dependsOn, Composite.rhsComposite, anyDeep_reaches x.name y.fields h2,
        anyResolved_eq y.name x.fields h1, needs, mentions, reaches, TypeNotation.name, Res.bind_eq, Res.bind, Res.pure_eq]
      split <;> simp_all
    | restr y => exact dependsOn_regular _ _ h
  | restr x => cases b with
    | comp y => exact dependsOn_regular _ _ h
    | restr y => exact dependsOn_regular _ _ h

theorem Fair.reaches {a b : TypeNotation} (h : Fair a b) (hn : needs a b = true) : reaches a b = true := by
  cases a with
  | comp x => cases b with
    | comp y =>
      obtain ⟨h1, -, h3, -⟩ := h
      simp only [needs, mentions, TypeNotation.name, List.any_eq_true] at hn
      obtain ⟨f, hf, hfn⟩ := hn
      simp only [Spec.reaches, List.any_eq_true]
      refine ⟨f, hf, ?_⟩
      by_cases hr : f.AMQPType = .restricted_t
      · rw [if_pos hr]
        have := h3 f hf hr ((fieldTypeName_resolved f y.name (h1 f hf)).mp hfn)
        simpa using this
      · rw [if_neg hr]
        exact hfn
    | restr y => exact hn
  | restr x => cases b with
    | comp y => exact hn
    | restr y => exact hn

private def answer (xs : List TypeNotation) (a b : TypeNotation) : Int :=
  if a ∈ xs ∧ b ∈ xs then (if reaches b a then 1 else if needs a b then 2 else 0) else 0

private def answerOther (xs : List TypeNotation) (a b : TypeNotation) : Int :=
  if a ∈ xs ∧ b ∈ xs ∧ a ≠ b then (if reaches b a then 1 else if needs a b then 2 else 0) else 0

private def reachesOther (xs : List TypeNotation) (a b : TypeNotation) : Prop := a ∈ xs ∧ b ∈ xs ∧ a ≠ b ∧ reaches a b = true

/-- **C13 for schema types with lists, what does hold.** Types of which none occurs twice and no two reach each other.  If what is
reached only inside of containers reaches nothing itself and never arrives after a type that reaches it, and the types arrive
"transitively", then every type comes strictly after everything else it names. -/
theorem C13_lists_partial (xs : List TypeNotation) (hn : xs.Nodup) (hreg : ∀ a ∈ xs, ∀ b ∈ xs, Fair a b)
    (hm : ∀ a ∈ xs, ∀ b ∈ xs, a ≠ b → ¬ (reaches a b = true ∧ reaches b a = true))
    (hleaf : ∀ d ∈ xs, ∀ e ∈ xs, ∀ n ∈ xs, d ≠ e → e ≠ n → reaches d e = true → needs d e = false → reaches e n = false)
    (ht : ∀ pre x post, xs = pre ++ x :: post → ∀ d ∈ pre, ∀ n ∈ pre, reaches d x = true → reaches x n = true → reaches d n = true)
    (hb : ∀ pre x post, xs = pre ++ x :: post → ∀ d ∈ pre, reaches d x = true → needs d x = true) :
    ∃ r, insertAllR TypeNotation.dependsOn xs = .ok r ∧ r.flatten.Perm xs
      ∧ NeedsEarlier (fun a b => a ≠ b ∧ needs a b = true) r := by
  have hd : ∀ a b, a ∈ xs → b ∈ xs → a.dependsOn b = .ok (answer xs a b) := by
    intro a b ha hb
    rw [dependsOn_fair a b (hreg a ha b hb)]
    simp [answer, ha, hb]
  obtain ⟨r, h1, h2⟩ := insertAllR_of (S := (· ∈ xs)) hd xs (fun x hx => hx)
  have hp := (C11_schema_types xs r h1).1
  refine ⟨r, h1, hp, ?_⟩
  have hans : Answers (answerOther xs) := by
    intro a b
    unfold answerOther
    repeat' split
    all_goals simp
  have hoff : ∀ a b, a ≠ b → answer xs a b = answerOther xs a b := by
    intro a b hab
    simp [answer, answerOther, hab]
  rw [insertAll_congr hoff hans xs hn] at h2
  have two : ∀ a b, reachesOther xs a b → needs a b = true → answerOther xs a b = 2 := by
    intro a b h hab
    have h3 : reaches b a = false := by
      rw [← Bool.not_eq_true]
      exact fun h4 => hm a h.1 b h.2.1 h.2.2.1 ⟨h.2.2.2, h4⟩
    unfold answerOther
    rw [if_pos ⟨h.1, h.2.1, h.2.2.1⟩, h3, hab]
    rfl
  have hsees : Sees (answerOther xs) (reachesOther xs) := by
    refine ⟨?_, ?_, fun a h => h.2.2.1 rfl⟩
    · intro a b
      unfold answerOther reachesOther
      by_cases ha : a ∈ xs <;> by_cases hb : b ∈ xs <;> by_cases hab : a = b <;> simp [ha, hb, hab]
      · cases hr : reaches b a
        · simp; split <;> simp
        · simp; exact fun h => hab h.symm
    · intro a b
      unfold answerOther reachesOther
      by_cases ha : a ∈ xs <;> by_cases hb : b ∈ xs <;> by_cases hab : a = b <;> simp [ha, hb, hab]
      cases hr : reaches b a
      · cases hn : needs a b
        · simp
        · simp; exact (hreg a ha b hb).reaches hn
      · simp
  have key : NeedsEarlier (reachesOther xs) r := by
    refine C13_seen_partial (answerOther xs) (reachesOther xs) hsees hans ?_ xs ?_ ?_ r h2
    · intro d e n h3 h4
      refine two d e h3 ?_
      cases hde : needs d e with
      | true => rfl
      | false =>
        have := hleaf d h3.1 e h3.2.1 n h4.2.1 h3.2.2.1 h4.2.2.1 h3.2.2.2 hde
        rw [h4.2.2.2] at this
        cases this
    · intro pre x post e d hd n hn' h3 h4
      refine ⟨h3.1, h4.2.1, ?_, ht pre x post e d hd n hn' h3.2.2.2 h4.2.2.2⟩
      intro hdn
      subst hdn
      exact hm d h3.1 x h3.2.1 h3.2.2.1 ⟨h3.2.2.2, h4.2.2.2⟩
    · intro pre x post e d hd h3
      exact two d x h3 (hb pre x post e d hd h3.2.2.2)
  intro i j Li Lj hi hj a ha b hb hn
  have hax := hp.mem_iff.mp (List.mem_flatten.mpr ⟨Li, List.mem_of_getElem? hi, ha⟩)
  have hbx := hp.mem_iff.mp (List.mem_flatten.mpr ⟨Lj, List.mem_of_getElem? hj, hb⟩)
  exact key i j Li Lj hi hj a ha b hb ⟨hax, hbx, hn.1, (hreg a hax b hbx).reaches hn.2⟩

/-- Primitive members are of types that can be read, all other names are those of types that are there, and no list or map is an element
of itself. -/
structure Complete (ts : List TypeNotation) : Prop where
  present : ∀ t ∈ ts, served (ts.map TypeNotation.name) t
  primitive : ∀ c, .comp c ∈ ts → ∀ f ∈ c.fields, f.kind = .primitive → f.type ∈ readable
  proper : ∀ r, .restr r ∈ ts → needs (.restr r) (.restr r) = false

/-- Types each of which comes strictly after what it names are in order. -/
private theorem ordered_of {ts : List TypeNotation} (hc : Complete ts) {r : List (List TypeNotation)} (hp : r.flatten.Perm ts)
    (h : NeedsEarlier (fun a b => a ≠ b ∧ needs a b = true) r) : Ordered [publicKeyType] r.flatten := by
  refine ordered_levels r _ ?_
  intro i L hi t ht K hK hearlier
  have hmem : t ∈ ts := hp.mem_iff.mp (List.mem_flatten.mpr ⟨L, List.mem_of_getElem? hi, ht⟩)
  have key : ∀ n, mentions t n = true → n ∈ ts.map TypeNotation.name → n = t.name ∧ mentions t t.name = true ∨ n ∈ K := by
    intro n hmen hn
    obtain ⟨u, hu, rfl⟩ := List.mem_map.mp hn
    by_cases htu : t = u
    · subst htu
      exact .inl ⟨rfl, hmen⟩
    · right
      obtain ⟨Lj, hLj, hmj⟩ := List.mem_flatten.mp (hp.mem_iff.mpr hu)
      obtain ⟨j, hj⟩ := List.getElem?_of_mem hLj
      exact hearlier j Lj (h i j L Lj hi hj t ht u hmj ⟨htu, hmen⟩) hj u hmj
  have hs := hc.present t hmem
  cases t with
  | comp c =>
    intro f hf
    have hsf := hs f hf
    have hmen : ∀ n, fieldTypeName f = some n → mentions (.comp c) n = true := by
      intro n hn
      simp only [mentions, List.any_eq_true, beq_iff_eq]
      exact ⟨f, hf, hn⟩
    unfold fieldServed at hsf ⊢
    have hother : (∃ t, fieldTypeName f = some t ∧ (t = c.name ∨ t ∈ ts.map TypeNotation.name)) →
        ∃ t, fieldTypeName f = some t ∧ (t = c.name ∨ t ∈ K) := by
      rintro ⟨n, h1, h2⟩
      refine ⟨n, h1, ?_⟩
      rcases h2 with h2 | h2
      · exact .inl h2
      · exact (key n (hmen n h1) h2).imp (fun h => h.1) id
    cases hk : f.kind with
    | primitive => exact .inl (hc.primitive c hmem f hf hk)
    | custom => rw [hk] at hsf; exact hother hsf
    | restricted => rw [hk] at hsf; exact hother hsf
    | array => rw [hk] at hsf; exact hother hsf
    | composite => rw [hk] at hsf; exact hother hsf
  | restr r =>
    have hself : mentions (.restr r) (TypeNotation.restr r).name = false := hc.proper r hmem
    have helem : ∀ n, mentions (.restr r) n = true → elemServed (ts.map TypeNotation.name) n → elemServed K n := by
      intro n hn h1
      rcases h1 with h1 | h1
      · exact .inl h1
      · rcases key n hn h1 with h2 | h2
        · rw [hself] at h2; cases h2.2
        · exact .inr h2
    unfold served at hs ⊢
    unfold mentions at helem
    cases hk : r.kind with
    | list l => simp only [hk] at hs helem ⊢; exact helem l (by simp) hs
    | array l => simp only [hk] at hs helem ⊢; exact helem l (by simp) hs
    | map k v => simp only [hk] at hs helem ⊢; exact ⟨helem k (by simp) hs.1, helem v (by simp) hs.2⟩
    | enum cs => simp only [hk]

/-- **C95 for classes with lists and maps, what does hold.** Under the conditions of `C13_lists_partial` on the types in the order of their
names, every object of these classes each part of which has a text is shown. -/
theorem C95_lists_partial (leftFirst : Bool) {ds : List ClassDesc} {ts : List TypeNotation} (ha : InAlphabet ds)
    (hmade : (ds.map classType).map TypeDesc.make = ts.map Res.ok) (hs : Sound leftFirst ts) (hc : Complete ts) (hn : ts.Nodup)
    (hreg : ∀ a ∈ ts, ∀ b ∈ ts, Fair a b)
    (hm : ∀ a ∈ ts, ∀ b ∈ ts, a ≠ b → ¬ (reaches a b = true ∧ reaches b a = true))
    (hleaf : ∀ d ∈ ts, ∀ e ∈ ts, ∀ n ∈ ts, d ≠ e → e ≠ n → reaches d e = true → needs d e = false → reaches e n = false)
    (ht : ∀ pre x post, ts = pre ++ x :: post → ∀ d ∈ pre, ∀ n ∈ pre, reaches d x = true → reaches x n = true → reaches d n = true)
    (hb : ∀ pre x post, ts = pre ++ x :: post → ∀ d ∈ pre, reaches d x = true → needs d x = true)
    {o : Obj} (ho : Conforms ds o) (hv : Showable ts o) : IsShown leftFirst o := by
  obtain ⟨r, h1, h2, h3⟩ := C13_lists_partial ts hn hreg hm hleaf ht hb
  obtain ⟨ls, h4, h5, -⟩ := C95_order_decides leftFirst ha hmade hs ho hv
  rw [h1] at h4
  cases h4
  exact h5.mpr (ordered_of hc h2 h3)

def isComp : TypeNotation → Prop
  | .comp _ => True
  | .restr _ => False

/-- Classes with lists of classes that have no classes or lists as members, each class named after those it uses. -/
structure LeafLists (ts : List TypeNotation) : Prop where
  flat : ∀ l ∈ ts, ∀ m ∈ ts, ¬ isComp l → ¬ isComp m → needs l m = false
  seen : ∀ d ∈ ts, ∀ l ∈ ts, ∀ e ∈ ts, isComp d → ¬ isComp l → isComp e → needs d l = true → needs l e = true → reaches d e = true
  only : ∀ d ∈ ts, ∀ e ∈ ts, reaches d e = true → needs d e = false → ∃ l ∈ ts, ¬ isComp l ∧ needs d l = true ∧ needs l e = true
  leaf : ∀ l ∈ ts, ∀ e ∈ ts, ¬ isComp l → needs l e = true → ∀ n ∈ ts, e ≠ n → reaches e n = false
  first : ∀ pre x post, ts = pre ++ x :: post → isComp x → ∀ d ∈ pre, isComp d → reaches d x = false

instance (t : TypeNotation) : Decidable (isComp t) := by unfold isComp; cases t <;> infer_instance

private theorem reaches_restr {a b : TypeNotation} (h : ¬ (isComp a ∧ isComp b)) : reaches a b = needs a b := by
  cases a with
  | comp x => cases b with
    | comp y => exact absurd ⟨trivial, trivial⟩ h
    | restr y => rfl
  | restr x => cases b with
    | comp y => rfl
    | restr y => rfl

private theorem split_two {α : Type} {l : List α} {a b : α} (ha : a ∈ l) (hb : b ∈ l) (h : a ≠ b) :
    (∃ pre post, l = pre ++ b :: post ∧ a ∈ pre) ∨ (∃ pre post, l = pre ++ a :: post ∧ b ∈ pre) := by
  obtain ⟨s, t, rfl⟩ := List.append_of_mem ha
  rcases List.mem_append.mp hb with hb | hb
  · exact .inr ⟨s, t, rfl, hb⟩
  · rcases List.mem_cons.mp hb with rfl | hb
    · exact absurd rfl h
    · obtain ⟨u, v, rfl⟩ := List.append_of_mem hb
      exact .inl ⟨s ++ a :: u, v, by simp, by simp⟩

/-- **C95 for lists of simple classes, what does hold.** Classes with members of primitive types, of the classes and of lists and maps of
them, where the classes in lists and maps have members of primitive types only.  If each class is named after the classes it uses,
directly or in a list, every object of them is shown, whatever the package. -/
theorem C95_leaf_lists_partial (leftFirst : Bool) {ds : List ClassDesc} {ts : List TypeNotation} (ha : InAlphabet ds)
    (hmade : (ds.map classType).map TypeDesc.make = ts.map Res.ok) (hs : Sound leftFirst ts) (hc : Complete ts) (hn : ts.Nodup)
    (hreg : ∀ a ∈ ts, ∀ b ∈ ts, Fair a b) (hl : LeafLists ts) {o : Obj} (ho : Conforms ds o) (hv : Showable ts o) :
    IsShown leftFirst o := by
  have hm : ∀ a ∈ ts, ∀ b ∈ ts, a ≠ b → ¬ (reaches a b = true ∧ reaches b a = true) := by
    rintro a ha b hb hab ⟨h1, h2⟩
    by_cases hca : isComp a
    · by_cases hcb : isComp b
      · rcases split_two ha hb hab with ⟨pre, post, h3, h4⟩ | ⟨pre, post, h3, h4⟩
        · rw [hl.first pre b post h3 hcb a h4 hca] at h1; cases h1
        · rw [hl.first pre a post h3 hca b h4 hcb] at h2; cases h2
      · rw [reaches_restr fun h => hcb h.1] at h2
        rw [hl.leaf b hb a ha hcb h2 b hb hab] at h1
        cases h1
    · by_cases hcb : isComp b
      · rw [reaches_restr fun h => hca h.1] at h1
        rw [hl.leaf a ha b hb hca h1 a ha (Ne.symm hab)] at h2
        cases h2
      · rw [reaches_restr fun h => hca h.1, hl.flat a ha b hb hca hcb] at h1
        cases h1
  have hmem : ∀ {pre x post}, ts = pre ++ x :: post → x ∈ ts ∧ ∀ d ∈ pre, d ∈ ts ∧ d ≠ x := by
    intro pre x post e
    refine ⟨by rw [e]; simp, fun d hd => ⟨by rw [e]; simp [hd], ?_⟩⟩
    rintro rfl
    rw [e] at hn
    exact (List.nodup_append.mp hn).2.2 d hd d (by simp) rfl
  refine C95_lists_partial leftFirst ha hmade hs hc hn hreg hm ?_ ?_ ?_ ho hv
  · intro d hd e he n hn' _ hen h1 h2
    obtain ⟨l, hl1, hl2, -, hl3⟩ := hl.only d hd e he h1 h2
    exact hl.leaf l hl1 e he hl2 hl3 n hn' hen
  · intro pre x post e d hd n hn' h1 h2
    obtain ⟨hx, hpre⟩ := hmem e
    obtain ⟨hdt, hdx⟩ := hpre d hd
    obtain ⟨hnt, hnx⟩ := hpre n hn'
    by_cases hcd : isComp d
    · by_cases hcx : isComp x
      · rw [hl.first pre x post e hcx d hd hcd] at h1; cases h1
      · by_cases hcn : isComp n
        · rw [reaches_restr fun h => hcx h.2] at h1
          rw [reaches_restr fun h => hcx h.1] at h2
          exact hl.seen d hdt x hx n hnt hcd hcx hcn h1 h2
        · rw [reaches_restr fun h => hcx h.1, hl.flat x hx n hnt hcx hcn] at h2; cases h2
    · rw [reaches_restr fun h => hcd h.1] at h1
      rw [hl.leaf d hdt x hx hcd h1 n hnt (Ne.symm hnx)] at h2
      cases h2
  · intro pre x post e d hd h1
    by_cases hcd : isComp d
    · by_cases hcx : isComp x
      · rw [hl.first pre x post e hcx d hd hcd] at h1; cases h1
      · rw [reaches_restr fun h => hcx h.2] at h1; exact h1
    · rw [reaches_restr fun h => hcd h.1] at h1; exact h1

/-! ### An order with any number of items -/

private def nOrder : Str := "net.Order".toList
private def nItem : Str := "net.Item".toList
private def nCustomer : Str := "net.Customer".toList
private def nItems : Str := "java.util.List<net.Item>".toList
private def fpOrder : Str := "fpO".toList
private def fpItem : Str := "fpI".toList
private def fpCustomer : Str := "fpC".toList
private def fpItems : Str := "fpL".toList

def bought (n : Int) : Obj := .comp nItem fpItem [.prim "count".toList false (.int n)]

/-- An order of a customer, with a list of items. -/
def orderOf (name : Str) (ns : List Int) : Obj :=
  .comp nOrder fpOrder [
    .obj "customer".toList nCustomer false (.comp nCustomer fpCustomer [.prim "name".toList false (.string name)]),
    .obj "items".toList nItems false (.list nItems fpItems (ns.map fun n => .obj (bought n)))]

private def orderClasses : List ClassDesc :=
  [⟨(nItems, fpItems), .inr "list".toList⟩,
   ⟨(nCustomer, fpCustomer), .inl [⟨"name".toList, "string".toList, [], false⟩]⟩,
   ⟨(nItem, fpItem), .inl [⟨"count".toList, "int".toList, [], false⟩]⟩,
   ⟨(nOrder, fpOrder), .inl [⟨"customer".toList, nCustomer, [], false⟩, ⟨"items".toList, "*".toList, [nItems], false⟩]⟩]

private def orderTypes : List TypeNotation :=
  [.restr ⟨nItems, [], [], fpItems, .list nItem⟩,
   .comp ⟨nCustomer, [], [], fpCustomer, [⟨.primitive, "name".toList, "string".toList, [], [], [], false, false, []⟩]⟩,
   .comp ⟨nItem, [], [], fpItem, [⟨.primitive, "count".toList, "int".toList, [], [], [], false, false, []⟩]⟩,
   .comp ⟨nOrder, [], [], fpOrder, [⟨.composite, "customer".toList, nCustomer, [], [], [], false, false, []⟩,
     ⟨.restricted, "items".toList, "*".toList, [nItems], [], [], false, false, [nItems, nItem]⟩]⟩]

private theorem first_of {ts : List TypeNotation} (h : ts.Pairwise fun d x => isComp x → isComp d → reaches d x = false) :
    ∀ pre x post, ts = pre ++ x :: post → isComp x → ∀ d ∈ pre, isComp d → reaches d x = false := by
  rintro pre x post rfl hx d hd hcd
  exact (List.pairwise_append.mp h).2.2 d hd x List.mem_cons_self hx hcd

private theorem order_upright : ∀ c, .comp c ∈ orderTypes → Resolvable c ∧ ∀ n, Upright c n := by
  intro c hc
  simp only [orderTypes, List.mem_cons, List.not_mem_nil, or_false, reduceCtorEq, false_or, TypeNotation.comp.injEq] at hc
  rcases hc with rfl | rfl | rfl
  · refine ⟨?_, fun n f hf => ?_⟩
    · intro f hf
      rw [List.mem_singleton.mp hf]
      exact ⟨_, rfl⟩
    · rw [List.mem_singleton.mp hf]
      intro h; exact absurd h (by decide)
  · refine ⟨?_, fun n f hf => ?_⟩
    · intro f hf
      rw [List.mem_singleton.mp hf]
      exact ⟨_, rfl⟩
    · rw [List.mem_singleton.mp hf]
      intro h; exact absurd h (by decide)
  · refine ⟨?_, fun n f hf => ?_⟩
    · intro f hf
      simp only [List.mem_cons, List.not_mem_nil, or_false] at hf
      rcases hf with rfl | rfl
      · exact ⟨_, rfl⟩
      · exact ⟨_, rfl⟩
    · simp only [List.mem_cons, List.not_mem_nil, or_false] at hf
      rcases hf with rfl | rfl
      · intro h; exact absurd h (by decide)
      · intro _ h
        simp only [Field.resolvedType, front, Res.ok.injEq] at h
        subst h
        exact List.mem_cons_self

private theorem order_fair : ∀ a ∈ orderTypes, ∀ b ∈ orderTypes, Fair a b := by
  have hr : ∀ r, .restr r ∈ orderTypes → r.kind = .list nItem := by
    intro r h
    simp only [orderTypes, List.mem_cons, List.not_mem_nil, or_false, reduceCtorEq, TypeNotation.restr.injEq] at h
    subst h
    rfl
  intro a ha b hb
  cases a with
  | comp x => cases b with
    | comp y => exact ⟨(order_upright x ha).1, (order_upright y hb).1, (order_upright x ha).2 _, (order_upright y hb).2 _⟩
    | restr y => exact ⟨(order_upright x ha).1, fun cs h => by rw [hr y hb] at h; cases h⟩
  | restr x => cases b with
    | comp y => exact ⟨(order_upright y hb).1, fun cs h => by rw [hr x ha] at h; cases h⟩
    | restr y =>
      unfold Fair Regular
      simp only [hr x ha, hr y hb]

private theorem order_leaf : LeafLists orderTypes :=
  ⟨by decide +kernel, by decide +kernel, by decide +kernel, by decide +kernel, first_of (by decide +kernel)⟩

private theorem order_complete : Complete orderTypes := by
  refine ⟨by decide +kernel, ?_, ?_⟩
  · intro c hc f hf
    simp only [orderTypes, List.mem_cons, List.not_mem_nil, or_false, reduceCtorEq, false_or, TypeNotation.comp.injEq] at hc
    rcases hc with rfl | rfl | rfl
    · rw [List.mem_singleton.mp hf]; decide +kernel
    · rw [List.mem_singleton.mp hf]; decide +kernel
    · simp only [List.mem_cons, List.not_mem_nil, or_false] at hf
      rcases hf with rfl | rfl <;> simp
  · intro r h
    simp only [orderTypes, List.mem_cons, List.not_mem_nil, or_false, reduceCtorEq, TypeNotation.restr.injEq] at h
    subst h
    decide +kernel

/-- `C95_leaf_lists_partial` applies: an order with any positive number of items is shown. -/
theorem C95_orders (leftFirst : Bool) (name : Str) (n : Int) (ns : List Int) : IsShown leftFirst (orderOf name (n :: ns)) := by
  have hmem : orderClasses[0] ∈ orderClasses ∧ orderClasses[1] ∈ orderClasses ∧ orderClasses[2] ∈ orderClasses ∧ orderClasses[3] ∈ orderClasses :=
    ⟨List.getElem_mem _, List.getElem_mem _, List.getElem_mem _, List.getElem_mem _⟩
  have hso : Sound leftFirst orderTypes := by
    have e : typesOf orderClasses = orderTypes := by decide +kernel
    have h : presentable leftFirst orderClasses = true := by cases leftFirst <;> decide +kernel
    exact e ▸ (presentable_sound h).sound
  refine C95_leaf_lists_partial leftFirst (ds := orderClasses) (ts := orderTypes) ((inAlphabet_iff _).1 (by decide +kernel)) (by decide +kernel)
    hso order_complete (by decide +kernel) order_fair order_leaf ?_ ?_
  · refine conforms_of (within_comp hmem.2.2.2 ?_) ?_
    · simp only [List.forall_mem_cons]
      refine ⟨within_objM _ _ _ (within_comp hmem.2.1 ?_), within_objM _ _ _ (within_list hmem.1 ?_), by simp⟩
      · simp only [List.forall_mem_cons]
        exact ⟨within_primM _ _ _, by simp⟩
      · intro e he
        obtain ⟨k, -, rfl⟩ := List.mem_map.mp he
        refine within_objE (within_comp hmem.2.2.1 ?_)
        simp only [List.forall_mem_cons]
        exact ⟨within_primM _ _ _, by simp⟩
    · have hlist : ∀ u, u ∈ classes (.list nItems fpItems ((n :: ns).map fun n => .obj (bought n))) →
          u ∈ classes (orderOf name (n :: ns)) := fun u hu => classes_in_comp (List.mem_cons_of_mem _ List.mem_cons_self) hu
      simp only [orderClasses, List.forall_mem_cons]
      refine ⟨hlist _ (classes_self_list _ _ _), classes_in_comp List.mem_cons_self (classes_self_comp _ _ _),
        hlist _ (classes_in_list List.mem_cons_self (classes_self_comp _ _ _)), classes_self_comp _ _ _, by simp⟩
  · unfold orderOf
    simp only [Showable, ShowableMembers, ShowableMember, Prim.shows, and_true]
    refine ⟨rfl, rfl, ⟨nItems, [], [], fpItems, .list nItem⟩, nItem, List.mem_cons_self, rfl, rfl, .inl rfl, ?_⟩
    generalize n :: ns = l
    induction l with
    | nil => trivial
    | cons k l ih =>
      refine ⟨⟨rfl, ?_⟩, ih⟩
      simp only [bought, Showable, ShowableMembers, ShowableMember, Prim.shows, and_true]

example : parsedText (objVal (orderOf "Ann".toList [3, 1])) =
    "{ Parsed : { customer : { name : \"Ann\" }, items : [ { count : 3 }, { count : 1 } ] } }".toList := by decide +kernel

/-- A composite with one member, which is a list. -/
def withList (c e : String) (os : List Obj) : Obj :=
  .comp c.toList ("fp" ++ c).toList [.obj "l".toList ("java.util.List<" ++ e ++ ">").toList false
    (.list ("java.util.List<" ++ e ++ ">").toList ("fpL" ++ e).toList (os.map .obj))]

/-- **C95 fails as stated, for lists of objects with lists**, although each class is named after those it uses.  Orders with a list of lines
with a list of items cannot be inspected in the package `net`; in `com` they are shown.  There an object with one such line and one such
order fails. -/
theorem C95_list_chain_violated :
    let item (p : String) : Obj := .comp (p ++ ".Item").toList "fpI".toList [.prim "x".toList false (.int 1)]
    let line (p : String) := withList (p ++ ".Line") (p ++ ".Item") [item p]
    let order (p : String) := withList (p ++ ".Order") (p ++ ".Line") [line p]
    let box (p : String) : Obj := .comp (p ++ ".Z").toList "fpZ".toList [.obj "a".toList (p ++ ".Line").toList false (line p),
      .obj "b".toList (p ++ ".Order").toList false (order p)]
    (inspect true (written (order "net"))).1 = .throw "Can't find"
    ∧ (inspect true (written (order "com"))).1 = .ok "{ Parsed : { l : [ { l : [ { x : 1 } ] } ] } }".toList
    ∧ (inspect true (written (box "com"))).1 = .throw "Missing type in serialisers map" := by
  decide +kernel

#print axioms C13_lists_partial
#print axioms C95_lists_partial
#print axioms C95_leaf_lists_partial
#print axioms C95_orders
#print axioms C95_list_chain_violated

end Corda.Props
