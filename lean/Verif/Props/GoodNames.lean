import Verif.Props.Naming

/-
C95: which classes can be given names under which their objects can be inspected.
-/

namespace Corda.Props
open Corda Prog Spec

/-! ### The classes with other names -/

private def renameProp (f : Str → Str) (names : List Str) (p : PropDesc) : PropDesc :=
  if p.type ∈ names then { p with type := f p.type } else p

private def renameDesc (f : Str → Str) (names : List Str) (d : ClassDesc) : ClassDesc :=
  ⟨(f d.key.1, d.key.2), match d.body with
    | .inl ps => .inl (ps.map (renameProp f names))
    | .inr s => .inr s⟩

private theorem isContainer_rename (f : Str → Str) (o : Obj) : (rename f o).isContainer = o.isContainer := by
  cases o <;> (unfold rename; rfl)

private theorem name_rename {names : List Str} (f : Str → Str) (o : Obj) (h : PlainObj names o) : (rename f o).name = f o.name := by
  cases o with
  | comp n fp ms => unfold rename; rfl
  | list n fp es => exact absurd h (by simp [PlainObj])
  | map n fp es => exact absurd h (by simp [PlainObj])

private theorem name_class (o : Obj) : ∃ u ∈ classes o, u.1.1 = o.name := by
  cases o <;> (unfold classes; exact ⟨_, List.mem_cons_self, rfl⟩)

private theorem prim_type {v : Prim} (h : Prim.shows v) : v.type.typeName ∈ primNames := by
  cases v with
  | float => exact absurd h (by simp [Prim.shows])
  | char => exact absurd h (by simp [Prim.shows])
  | int => exact (by decide +kernel : PrimType.int.typeName ∈ primNames)
  | string => exact (by decide +kernel : PrimType.string.typeName ∈ primNames)
  | bool => exact (by decide +kernel : PrimType.bool.typeName ∈ primNames)
  | double => exact (by decide +kernel : PrimType.double.typeName ∈ primNames)
  | long => exact (by decide +kernel : PrimType.long.typeName ∈ primNames)

mutual

private theorem rename_obj (f : Str → Str) (names : List Str) (hn : ∀ n ∈ names, n ∉ primNames) :
    ∀ o : Obj, PlainObj names o → (∀ u ∈ classes o, u.1.1 ∈ names) →
      classes (rename f o) = (classes o).map (fun u => ((f u.1.1, u.1.2), u.2))
      ∧ shapes (rename f o) = (shapes o).map (fun a => ((f a.1.1, a.1.2), a.2.map (renameProp f names)))
      ∧ PlainObj (names.map f) (rename f o)
  | .comp n fp ms, h, hc => by
    unfold PlainObj at h
    unfold classes at hc
    obtain ⟨h1, h2, h3, h4⟩ := rename_members f names hn ms h (fun u hu => hc u (by simp [hu]))
    unfold rename classes shapes PlainObj
    exact ⟨by rw [h1]; rfl, by rw [h2, h3]; rfl, h4⟩
  | .list _ _ _, h, _ => absurd h (by simp [PlainObj])
  | .map _ _ _, h, _ => absurd h (by simp [PlainObj])

private theorem rename_members (f : Str → Str) (names : List Str) (hn : ∀ n ∈ names, n ∉ primNames) :
    ∀ ms : List Member, PlainMembers names ms → (∀ u ∈ classesMembers ms, u.1.1 ∈ names) →
      classesMembers (renameMembers f ms) = (classesMembers ms).map (fun u => ((f u.1.1, u.1.2), u.2))
      ∧ shapesMembers (renameMembers f ms) = (shapesMembers ms).map (fun a => ((f a.1.1, a.1.2), a.2.map (renameProp f names)))
      ∧ (renameMembers f ms).map memberDesc = (ms.map memberDesc).map (renameProp f names)
      ∧ PlainMembers (names.map f) (renameMembers f ms)
  | [], _, _ => by unfold renameMembers; exact ⟨rfl, rfl, rfl, trivial⟩
  | .prim n p v :: ms, h, hc => by
    unfold PlainMembers PlainMember at h
    unfold classesMembers classesMember at hc
    obtain ⟨h1, h2, h3, h4⟩ := rename_members f names hn ms h.2 (fun u hu => hc u (by simp [hu]))
    have : v.type.typeName ∉ names := fun e => hn _ e (prim_type h.1)
    unfold renameMembers renameMember classesMembers classesMember shapesMembers shapesMember PlainMembers PlainMember
    refine ⟨by simpa using h1, by simpa using h2, ?_, h.1, h4⟩
    rw [List.map_cons, List.map_cons, List.map_cons, h3]
    simp only [memberDesc, renameProp, this, if_false]
  | .nullPrim _ _ :: _, h, _ => absurd h (by simp [PlainMembers, PlainMember])
  | .obj n t p o :: ms, h, hc => by
    unfold PlainMembers PlainMember at h
    unfold classesMembers classesMember at hc
    obtain ⟨h1, h2, h3, h4⟩ := rename_members f names hn ms h.2 (fun u hu => hc u (by simp [hu]))
    obtain ⟨g1, g2, g3⟩ := rename_obj f names hn o h.1.2 (fun u hu => hc u (by simp [hu]))
    have ht : t ∈ names := by
      obtain ⟨u, hu, e⟩ := name_class o
      rw [h.1.1, ← e]
      exact hc u (by simp [hu])
    have hno : o.isContainer = false := by
      have := h.1.2
      cases o with
      | comp => rfl
      | list => exact absurd this (by simp [PlainObj])
      | map => exact absurd this (by simp [PlainObj])
    unfold renameMembers renameMember classesMembers classesMember shapesMembers shapesMember PlainMembers PlainMember
    refine ⟨by rw [h1, g1, List.map_append], by rw [h2, g2, List.map_append], ?_, ⟨?_, g3⟩, h4⟩
    · rw [List.map_cons, List.map_cons, List.map_cons, h3]
      simp only [memberDesc, isContainer_rename, hno, Bool.and_false, renameProp, ht, if_true, Bool.false_eq_true, if_false]
    · rw [name_rename f o h.1.2, h.1.1]
  | .nullObj n t :: ms, h, hc => by
    unfold PlainMembers PlainMember at h
    unfold classesMembers classesMember at hc
    obtain ⟨h1, h2, h3, h4⟩ := rename_members f names hn ms h.2 (fun u hu => hc u (by simp [hu]))
    unfold renameMembers renameMember classesMembers classesMember shapesMembers shapesMember PlainMembers PlainMember
    refine ⟨by simpa using h1, by simpa using h2, ?_, List.mem_map.mpr ⟨t, h.1, rfl⟩, h4⟩
    rw [List.map_cons, List.map_cons, List.map_cons, h3]
    simp only [memberDesc, renameProp, h.1, if_true]

end

/-- Names for the classes: good for a class each, and none twice. -/
structure Naming (ds : List ClassDesc) (f : Str → Str) : Prop where
  good : ∀ d ∈ ds, ClassName (f d.key.1)
  apart : ∀ d ∈ ds, ∀ e ∈ ds, f d.key.1 = f e.key.1 → d = e

private def namesOf (ds : List ClassDesc) : List Str := ds.map fun e => e.key.1

private theorem sorted_perm : ∀ l : List ClassDesc, (l.Pairwise fun a b => a.key ≠ b.key) →
    ∃ s : List ClassDesc, s.Perm l ∧ s.Pairwise fun a b => keyLt a.key b.key = true
  | [], _ => ⟨[], .nil, .nil⟩
  | x :: l, h => by
    obtain ⟨hx, hl⟩ := List.pairwise_cons.mp h
    obtain ⟨s, hp, hs⟩ := sorted_perm l hl
    have hx' : ∀ a ∈ s, x.key ≠ a.key := fun a ha => hx a (hp.mem_iff.mp ha)
    have ins : ∀ s : List ClassDesc, (∀ a ∈ s, x.key ≠ a.key) → (s.Pairwise fun a b => keyLt a.key b.key = true) →
        ∃ t : List ClassDesc, t.Perm (x :: s) ∧ t.Pairwise fun a b => keyLt a.key b.key = true := by
      intro s
      induction s with
      | nil => exact fun _ _ => ⟨[x], .refl _, by simp⟩
      | cons a s ih =>
        intro h1 h2
        obtain ⟨h3, h4⟩ := List.pairwise_cons.mp h2
        cases hk : keyLt x.key a.key with
        | true =>
          refine ⟨x :: a :: s, .refl _, List.pairwise_cons.mpr ⟨fun b hb => ?_, h2⟩⟩
          rcases List.mem_cons.mp hb with rfl | hb
          · exact hk
          · exact keyOrder.2 _ _ _ hk (h3 b hb)
        | false =>
          obtain ⟨t, h5, h6⟩ := ih (fun b hb => h1 b (by simp [hb])) h4
          refine ⟨a :: t, (h5.cons a).trans (.swap x a s), List.pairwise_cons.mpr ⟨fun b hb => ?_, h6⟩⟩
          rcases List.mem_cons.mp (h5.mem_iff.mp hb) with rfl | hb
          · cases hk2 : keyLt a.key b.key with
            | true => rfl
            | false => exact absurd (keyOrder.3 _ _ hk hk2) (h1 a (by simp))
          · exact h3 b hb
    obtain ⟨t, h1, h2⟩ := ins s hx' hs
    exact ⟨t, h1.trans (hp.cons x), h2⟩

private theorem listed_rename {f : Str → Str} {names : List Str} {d : ClassDesc} (h : d.body = .inl d.listed) :
    (renameDesc f names d).body = .inl (d.listed.map (renameProp f names))
    ∧ (renameDesc f names d).listed = d.listed.map (renameProp f names) := by
  unfold renameDesc ClassDesc.listed
  rw [h]
  exact ⟨rfl, rfl⟩

mutual

private theorem plain_obj_mono {ns ms : List Str} (h : ∀ n ∈ ns, n ∈ ms) : ∀ o : Obj, PlainObj ns o → PlainObj ms o
  | .comp _ _ l, hv => by
    unfold PlainObj at hv ⊢
    exact plain_members_mono h l hv
  | .list _ _ _, hv => absurd hv (by simp [PlainObj])
  | .map _ _ _, hv => absurd hv (by simp [PlainObj])

private theorem plain_members_mono {ns ms : List Str} (h : ∀ n ∈ ns, n ∈ ms) : ∀ l : List Member, PlainMembers ns l → PlainMembers ms l
  | [], _ => by unfold PlainMembers; trivial
  | .prim _ _ _ :: l, hv => by
    unfold PlainMembers PlainMember at hv ⊢
    exact ⟨hv.1, plain_members_mono h l hv.2⟩
  | .nullPrim _ _ :: _, hv => absurd hv (by simp [PlainMembers, PlainMember])
  | .obj _ _ _ o :: l, hv => by
    unfold PlainMembers PlainMember at hv ⊢
    exact ⟨⟨hv.1.1, plain_obj_mono h o hv.1.2⟩, plain_members_mono h l hv.2⟩
  | .nullObj _ _ :: l, hv => by
    unfold PlainMembers PlainMember at hv ⊢
    exact ⟨h _ hv.1, plain_members_mono h l hv.2⟩

end

private theorem readable_primitive {t : Str} (h : t ∈ readable) : t ∈ primNames := by
  have : ∀ t ∈ readable, t ∈ primNames := by decide +kernel
  exact this t h

private theorem mem_names {ds : List ClassDesc} {n : Str} : n ∈ namesOf ds ↔ ∃ d ∈ ds, d.key.1 = n := by
  simp [namesOf]

private theorem uses_rename {ds : List ClassDesc} (hp : PlainClasses ds) {f : Str → Str} (hf : Naming ds f) {d e : ClassDesc} (hd : d ∈ ds)
    (he : e ∈ ds) : uses (renameDesc f (namesOf ds) d) (renameDesc f (namesOf ds) e) ↔ uses d e := by
  unfold uses
  rw [(listed_rename (hp.composite d hd)).2]
  rw [List.map_map, List.mem_map, List.mem_map]
  have hk : (renameDesc f (namesOf ds) e).key.1 = f e.key.1 := rfl
  rw [hk]
  constructor
  · rintro ⟨p, h1, h2⟩
    refine ⟨p, h1, ?_⟩
    rw [Function.comp_apply] at h2
    unfold renameProp at h2
    by_cases hm : p.type ∈ namesOf ds
    · rw [if_pos hm] at h2
      obtain ⟨g, hg, e1⟩ := mem_names.mp hm
      rw [← e1] at h2 ⊢
      rw [hf.apart g hg e he h2]
    · rw [if_neg hm] at h2
      rcases (hp.types d hd p h1).2 with h3 | h3
      · exact absurd (h2 ▸ readable_primitive h3) (hf.good e he).notPrimitive
      · exact absurd h3 hm
  · rintro ⟨p, h1, h2⟩
    refine ⟨p, h1, ?_⟩
    rw [Function.comp_apply]
    unfold renameProp
    rw [if_pos (mem_names.mpr ⟨e, he, h2.symm⟩)]
    exact congrArg f h2

/-- The classes with their new names, in the order of these. -/
private theorem renamed {ds : List ClassDesc} (ha : InAlphabet ds) (hp : PlainClasses ds) {f : Str → Str} (hf : Naming ds f) {o : Obj}
    (hc : Conforms ds o) (hv : PlainObj (namesOf ds) o) :
    ∃ ds' : List ClassDesc, (∀ e, e ∈ ds' ↔ ∃ d ∈ ds, renameDesc f (namesOf ds) d = e) ∧ InAlphabet ds' ∧ PlainClasses ds'
      ∧ Conforms ds' (rename f o) ∧ PlainObj (namesOf ds') (rename f o) := by
  have hapart : (ds.map (renameDesc f (namesOf ds))).Pairwise fun a b => a.key ≠ b.key := by
    rw [List.pairwise_map]
    refine ha.classes.imp_of_mem ?_
    intro a b h1 h2 h3 h4
    have : a = b := hf.apart a h1 b h2 (congrArg Prod.fst h4)
    rw [this, keyOrder.irrefl] at h3
    cases h3
  obtain ⟨ds', hperm, hsort⟩ := sorted_perm _ hapart
  have hmem : ∀ e, e ∈ ds' ↔ ∃ d ∈ ds, renameDesc f (namesOf ds) d = e := fun e => by
    rw [hperm.mem_iff, List.mem_map]
  have hnames : ∀ n, n ∈ namesOf ds' ↔ n ∈ (namesOf ds).map f := by
    intro n
    rw [mem_names, List.mem_map]
    constructor
    · rintro ⟨e, he, rfl⟩
      obtain ⟨d, hd, rfl⟩ := (hmem e).mp he
      exact ⟨d.key.1, mem_names.mpr ⟨d, hd, rfl⟩, rfl⟩
    · rintro ⟨m, hm, rfl⟩
      obtain ⟨d, hd, rfl⟩ := mem_names.mp hm
      exact ⟨_, (hmem _).mpr ⟨d, hd, rfl⟩, rfl⟩
  have hprim : ∀ n ∈ namesOf ds, n ∉ primNames := by
    intro n hn
    obtain ⟨d, hd, rfl⟩ := mem_names.mp hn
    exact (hp.names d hd).notPrimitive
  have hknown : ∀ u ∈ classes o, u.1.1 ∈ namesOf ds := by
    intro u hu
    obtain ⟨d, hd, rfl⟩ := List.mem_map.mp (hc.known u hu)
    exact mem_names.mpr ⟨d, hd, rfl⟩
  obtain ⟨h1, h2, h3⟩ := rename_obj f (namesOf ds) hprim o hv hknown
  refine ⟨ds', hmem, ⟨hsort, ?_⟩, ⟨?_, ?_, ?_, ?_⟩, ⟨?_, ?_, ?_⟩, plain_obj_mono (fun n hn => (hnames n).mpr hn) _ h3⟩
  · intro e he ps hb
    obtain ⟨d, hd, rfl⟩ := (hmem e).mp he
    rw [(listed_rename (hp.composite d hd)).1] at hb
    cases hb
    rw [List.pairwise_map]
    refine (ha.props d hd _ (hp.composite d hd)).imp ?_
    intro a b h
    have hn : ∀ p : PropDesc, (renameProp f (namesOf ds) p).name = p.name := fun p => by
      unfold renameProp; split <;> rfl
    rw [hn, hn]
    exact h
  · intro e he
    obtain ⟨d, hd, rfl⟩ := (hmem e).mp he
    rw [(listed_rename (hp.composite d hd)).1, (listed_rename (hp.composite d hd)).2]
  · intro e he p hpm
    obtain ⟨d, hd, rfl⟩ := (hmem e).mp he
    rw [(listed_rename (hp.composite d hd)).2] at hpm
    obtain ⟨q, hq, rfl⟩ := List.mem_map.mp hpm
    obtain ⟨h4, h5⟩ := hp.types d hd q hq
    unfold renameProp
    by_cases hm : q.type ∈ namesOf ds
    · rw [if_pos hm]
      exact ⟨h4, .inr ((hnames _).mpr (List.mem_map.mpr ⟨_, hm, rfl⟩))⟩
    · rw [if_neg hm]
      exact ⟨h4, .inl (h5.resolve_right hm)⟩
  · intro e he
    obtain ⟨d, hd, rfl⟩ := (hmem e).mp he
    exact hf.good d hd
  · intro a ha' b hb h
    obtain ⟨d, hd, rfl⟩ := (hmem a).mp ha'
    obtain ⟨e, he, rfl⟩ := (hmem b).mp hb
    have : d = e := by
      rcases h with h | h
      · exact hf.apart d hd e he h
      · exact hp.apart d hd e he (.inr h)
    rw [this]
  · intro u hu
    rw [h1] at hu
    obtain ⟨w, hw, rfl⟩ := List.mem_map.mp hu
    obtain ⟨d, hd, rfl⟩ := List.mem_map.mp (hc.known w hw)
    refine List.mem_map.mpr ⟨_, (hmem _).mpr ⟨d, hd, rfl⟩, ?_⟩
    unfold ClassDesc.use
    rw [(listed_rename (hp.composite d hd)).1, hp.composite d hd]
    rfl
  · intro e he
    obtain ⟨d, hd, rfl⟩ := (hmem e).mp he
    rw [h1]
    refine List.mem_map.mpr ⟨_, hc.used d hd, ?_⟩
    unfold ClassDesc.use
    rw [(listed_rename (hp.composite d hd)).1, hp.composite d hd]
    rfl
  · intro a ha'
    rw [h2] at ha'
    obtain ⟨b, hb, rfl⟩ := List.mem_map.mp ha'
    exact (hmem _).mpr ⟨_, hc.props b hb, rfl⟩

private theorem cycle_rename {ds ds' : List ClassDesc} (hp : PlainClasses ds) {f : Str → Str} (hf : Naming ds f)
    (hmem : ∀ e, e ∈ ds' ↔ ∃ d ∈ ds, renameDesc f (namesOf ds) d = e) {d e : ClassDesc} (h : Relation.TransGen (UsesOther ds) d e) :
    Relation.TransGen (UsesOther ds') (renameDesc f (namesOf ds) d) (renameDesc f (namesOf ds) e) := by
  have one : ∀ {a b}, UsesOther ds a b → UsesOther ds' (renameDesc f (namesOf ds) a) (renameDesc f (namesOf ds) b) := fun {a b} h =>
    ⟨(hmem _).mpr ⟨a, h.1, rfl⟩, (hmem _).mpr ⟨b, h.2.1, rfl⟩,
      fun e => h.2.2.1 (hf.apart a h.1 b h.2.1 (congrArg (fun d => d.key.1) e)), (uses_rename hp hf h.1 h.2.1).mpr h.2.2.2⟩
  induction h with
  | single h => exact .single (one h)
  | tail _ h ih => exact .tail ih (one h)

/-! ### Names made for the purpose -/

open Classical in
private noncomputable def rank (ds : List ClassDesc) (d : ClassDesc) : Nat :=
  (ds.filter fun e => decide (Relation.TransGen (UsesOther ds) d e)).length

private theorem rank_le (ds : List ClassDesc) (d : ClassDesc) : rank ds d ≤ ds.length := List.length_filter_le _ _

private theorem chain_head {ds : List ClassDesc} {d e x : ClassDesc} (h : UsesOther ds d e) (h' : Relation.TransGen (UsesOther ds) e x) :
    Relation.TransGen (UsesOther ds) d x := by
  induction h' with
  | single h1 => exact .tail (.single h) h1
  | tail _ h1 ih => exact .tail ih h1

private theorem rank_lt {ds : List ClassDesc} (hno : ∀ d, ¬ Relation.TransGen (UsesOther ds) d d) {d e : ClassDesc}
    (h : UsesOther ds d e) : rank ds e < rank ds d := by
  classical
  unfold rank
  have sub : ∀ l : List ClassDesc, (l.filter fun x => decide (Relation.TransGen (UsesOther ds) e x)).length
      + (if e ∈ l then 1 else 0) ≤ (l.filter fun x => decide (Relation.TransGen (UsesOther ds) d x)).length := by
    intro l
    induction l with
    | nil => simp
    | cons x l ih =>
      by_cases hx : x = e
      · subst hx
        have h1 : ¬ Relation.TransGen (UsesOther ds) x x := hno x
        have h2 : Relation.TransGen (UsesOther ds) d x := .single h
        simp only [List.filter_cons, h1, h2, decide_true, decide_false, if_true, List.length_cons, List.mem_cons, true_or,
          Bool.false_eq_true, if_false]
        split at ih <;> omega
      · have h1 : Relation.TransGen (UsesOther ds) e x → Relation.TransGen (UsesOther ds) d x := chain_head h
        have h3 : e ∈ x :: l ↔ e ∈ l := by simp [Ne.symm hx]
        simp only [List.filter_cons, h3]
        by_cases h2 : Relation.TransGen (UsesOther ds) e x
        · simp only [h2, h1 h2, decide_true, if_true, List.length_cons]
          omega
        · simp only [h2, decide_false, Bool.false_eq_true, if_false]
          by_cases h4 : Relation.TransGen (UsesOther ds) d x
          · simp only [h4, decide_true, if_true, List.length_cons]; omega
          · simp only [h4, decide_false, Bool.false_eq_true, if_false]; exact ih
  have := sub ds
  rw [if_pos h.2.1] at this
  omega

/-- `A…AB…B` -/
private def label (r i : Nat) : Str := List.replicate r 'A' ++ List.replicate (i + 1) 'B'

private theorem label_inj {r i s j : Nat} (h : label r i = label s j) : r = s ∧ i = j := by
  have h1 := congrArg (List.count 'A') h
  have h2 := congrArg (List.count 'B') h
  simp [label, List.count_append, List.count_replicate] at h1 h2
  exact ⟨h1, h2⟩

private theorem label_lt {r i s j : Nat} (h : s < r) : strLt (label r i) (label s j) = true := by
  unfold label
  induction s generalizing r with
  | zero =>
    obtain ⟨r, rfl⟩ : ∃ k, r = k + 1 := ⟨r - 1, by omega⟩
    simp only [List.replicate_succ, List.replicate_zero, List.nil_append, List.cons_append, strLt]
    rw [if_pos (by decide)]
  | succ s ih =>
    obtain ⟨r, rfl⟩ : ∃ k, r = k + 1 := ⟨r - 1, by omega⟩
    simp only [List.replicate_succ, List.cons_append, strLt]
    rw [if_neg (by decide), if_neg (by decide)]
    have := ih (r := r) (by omega)
    simpa only [List.replicate_succ] using this

private theorem label_chars {r i : Nat} {c : Char} (h : c ∈ label r i) : c = 'A' ∨ c = 'B' := by
  simp [label, List.mem_replicate] at h
  rcases h with h | h
  · exact .inl h.2
  · exact .inr h

private theorem label_good {r i : Nat} (hs : r + i + 1 < 2 ^ 63) : ClassName (label r i) := by
  have hB : 'B' ∈ label r i := by simp [label]
  have out : ∀ (s : Str), (∃ c ∈ s, c ≠ 'A' ∧ c ≠ 'B') → label r i ≠ s := by
    rintro s ⟨c, hc, h1, h2⟩ e
    rcases label_chars (e ▸ hc) with h | h
    · exact h1 h
    · exact h2 h
  refine ⟨?_, ?_, ?_, ?_, ⟨?_, ?_, ?_⟩, ?_⟩
  · intro h
    have : ∀ s ∈ primNames, ∃ c ∈ s, c ≠ 'A' ∧ c ≠ 'B' := by decide +kernel
    exact out _ (this _ h) rfl
  · rintro (⟨t, h⟩ | ⟨t, h⟩)
    · exact out (t ++ "[]".toList) ⟨']', by simp, by decide, by decide⟩ h.symm
    · exact out (t ++ "[p]".toList) ⟨']', by simp, by decide, by decide⟩ h.symm
  · exact out _ (by decide +kernel)
  · exact out _ (by decide +kernel)
  · intro h; rw [h] at hB; cases hB
  · exact out _ (by decide +kernel)
  · exact out _ (by decide +kernel)
  · unfold Str.Small
    simp only [label, List.length_append, List.length_replicate]
    omega

open Classical in
/-- A name for each class: the more classes it needs the more `A`s, then its place in the list. -/
private noncomputable def goodName (ds : List ClassDesc) (n : Str) : Str :=
  match ds.find? (fun d => d.key.1 == n) with
  | some d => label (rank ds d) (ds.idxOf d)
  | none => n

private theorem goodName_eq {ds : List ClassDesc} (hp : PlainClasses ds) {d : ClassDesc} (hd : d ∈ ds) :
    goodName ds d.key.1 = label (rank ds d) (ds.idxOf d) := by
  unfold goodName
  cases h : ds.find? (fun e => e.key.1 == d.key.1) with
  | none => exact absurd (List.find?_eq_none.mp h d hd) (by simp)
  | some e =>
    have h1 := List.mem_of_find?_eq_some h
    have h2 := List.find?_some h
    rw [hp.apart e h1 d hd (.inl (by simpa using h2))]

private theorem goodName_naming {ds : List ClassDesc} (hp : PlainClasses ds) (hl : ds.length < 2 ^ 62) : Naming ds (goodName ds) := by
  refine ⟨fun d hd => ?_, fun d hd e he h => ?_⟩
  · rw [goodName_eq hp hd]
    have h1 := rank_le ds d
    have h2 := List.idxOf_lt_length_of_mem hd
    exact label_good (by omega)
  · rw [goodName_eq hp hd, goodName_eq hp he] at h
    have h1 := (label_inj h).2
    have h2 := List.getElem_idxOf (List.idxOf_lt_length_of_mem hd)
    have h3 := List.getElem_idxOf (List.idxOf_lt_length_of_mem he)
    rw [← h2, ← h3]
    congr 1

/-- **C95, when there are good names.** Take any classes with members of primitive types and of these classes, and any object of
them.  There are names for the classes under which the object is shown just if no class uses itself by way of others. -/
theorem C95_good_names (leftFirst : Bool) {ds : List ClassDesc} (ha : InAlphabet ds) (hp : PlainClasses ds) (hl : ds.length < 2 ^ 62)
    {o : Obj} (hc : Conforms ds o) (hv : PlainObj (ds.map fun e => e.key.1) o) :
    (∃ f, Naming ds f ∧ IsShown leftFirst (rename f o)) ↔ ∀ d, ¬ Relation.TransGen (UsesOther ds) d d := by
  constructor
  · rintro ⟨f, hf, hs⟩ d hcyc
    obtain ⟨ds', hmem, h1, h2, h3, h4⟩ := renamed ha hp hf hc hv
    obtain ⟨n, h5, h6⟩ := hs
    obtain ⟨m, h7, h8⟩ := C95_plain_cycle_rejected leftFirst h1 h2 h3 h4 _ (cycle_rename hp hf hmem hcyc)
    rw [h5] at h7
    cases h7
    have := h8 (Cursor.root n) rfl
    rw [h6 (Cursor.root n) rfl] at this
    exact this
  · intro hno
    refine ⟨goodName ds, goodName_naming hp hl, ?_⟩
    obtain ⟨ds', hmem, h1, h2, h3, h4⟩ := renamed ha hp (goodName_naming hp hl) hc hv
    refine C95_users_first_partial leftFirst h1 h2 ?_ h3 h4
    intro a ha' b hb hu
    obtain ⟨d, hd, rfl⟩ := (hmem a).mp ha'
    obtain ⟨e, he, rfl⟩ := (hmem b).mp hb
    by_cases hde : d = e
    · exact .inl (by rw [hde])
    · refine .inr ?_
      have hu' := (uses_rename hp (goodName_naming hp hl) hd he).mp hu
      have hr := rank_lt hno ⟨hd, he, hde, hu'⟩
      unfold keyLt
      rw [if_pos]
      show strLt (goodName ds d.key.1) (goodName ds e.key.1) = true
      rw [goodName_eq hp hd, goodName_eq hp he]
      exact label_lt hr

/-- The text is that of the object under its old names. -/
theorem C95_good_names_text (leftFirst : Bool) (f : Str → Str) (o : Obj) (h : IsShown leftFirst (rename f o)) :
    ∃ n, serialise (rename f o) = .ok [n] ∧ ∀ c : Cursor, c.cur = some n → inspect leftFirst c = (.ok (parsedText (objVal o)), c) := by
  obtain ⟨n, h1, h2⟩ := h
  refine ⟨n, h1, fun c hc => ?_⟩
  rw [h2 c hc, C95_same_text]

/-- The classes of `order`, which is not shown under its own names (`C95_names_violated`). -/
private def shopClasses : List ClassDesc :=
  [⟨("net.Address".toList, "fpAddress".toList), .inl [⟨"city".toList, "net.City".toList, [], false⟩]⟩,
   ⟨("net.City".toList, "fpCity".toList), .inl [⟨"name".toList, "string".toList, [], false⟩]⟩,
   ⟨("net.Order".toList, "fpOrder".toList), .inl [⟨"customer".toList, "net.Person".toList, [], false⟩]⟩,
   ⟨("net.Person".toList, "fpPerson".toList), .inl [⟨"address".toList, "net.Address".toList, [], false⟩]⟩]

private def depth (d : ClassDesc) : Nat :=
  if d.key.2 = "fpOrder".toList then 3 else if d.key.2 = "fpPerson".toList then 2 else if d.key.2 = "fpAddress".toList then 1 else 0

/-- There are names under which it is. -/
example : ∃ f, Naming shopClasses f ∧ IsShown true (rename f order) := by
  refine (C95_good_names true ((inAlphabet_iff _).1 (by decide +kernel)) ⟨?_, ?_, ?_, ?_⟩ (by decide) ⟨?_, ?_, ?_⟩ ?_).mpr ?_
  · decide +kernel
  · decide +kernel
  · intro d hd
    have h1 : ∀ d ∈ shopClasses, d.key.1 ∉ primNames ∧ ¬ HasArraySuffix d.key.1 ∧ d.key.1 ≠ "*".toList ∧ d.key.1 ≠ publicKeyType
        ∧ (d.key.1 ≠ [] ∧ d.key.1 ≠ "]".toList ∧ d.key.1 ≠ "p]".toList) ∧ d.key.1.length < 2 ^ 63 := by decide +kernel
    obtain ⟨a, b, c, d, e, f⟩ := h1 d hd
    exact ⟨a, b, c, d, e, f⟩
  · decide +kernel
  · decide +kernel
  · decide +kernel
  · decide +kernel
  · simp only [order, PlainObj, PlainMembers, PlainMember, Prim.shows, and_true, Obj.name]
  · have one : ∀ a ∈ shopClasses, ∀ b ∈ shopClasses, uses a b → depth b < depth a := by decide +kernel
    have all : ∀ a b, Relation.TransGen (UsesOther shopClasses) a b → depth b < depth a := by
      intro a b h
      induction h with
      | single h => exact one _ h.1 _ h.2.1 h.2.2.2
      | tail _ h ih => exact Nat.lt_trans (one _ h.1 _ h.2.1 h.2.2.2) ih
    exact fun d h => absurd (all d d h) (Nat.lt_irrefl _)

#print axioms C95_good_names
#print axioms C95_good_names_text

end Corda.Props
