import Verif.Spec.Factory
import Verif.Lemmas.Readers
import Verif.Lemmas.Writer

/-
What processing a schema does to a factory.
-/

namespace Corda
open Spec FProg

namespace FProg

theorem bind_def {α β : Type} (p : FProg α) (f : α → FProg β) (F : Factory) :
    (p >>= f) F = match p F with
      | (.ok a, F') => f a F'
      | (.throw m, F') => (.throw m, F')
      | (.ub w, F') => (.ub w, F') := rfl

theorem pure_def {α : Type} (a : α) (F : Factory) : (pure a : FProg α) F = (.ok a, F) := rfl

end FProg

/-- The program returns with `Q`, or throws and `may` holds. -/
def Run {α : Type} (may : Prop) (p : FProg α) (F : Factory) (Q : α → Factory → Prop) : Prop :=
  (∃ a F', p F = (.ok a, F') ∧ Q a F') ∨ (may ∧ ∃ m F', p F = (.throw m, F'))

theorem Run.pure {α : Type} {may : Prop} {a : α} {F : Factory} {Q : α → Factory → Prop} (h : Q a F) :
    Run may (Pure.pure a : FProg α) F Q := .inl ⟨a, F, rfl, h⟩

theorem Run.bind {α β : Type} {may : Prop} {p : FProg α} {f : α → FProg β} {F : Factory} {Q : α → Factory → Prop}
    {R : β → Factory → Prop} (h : Run may p F Q) (h' : ∀ a F', Q a F' → Run may (f a) F' R) : Run may (p >>= f) F R := by
  rcases h with ⟨a, F', h1, h2⟩ | ⟨hm, m, F', h1⟩
  · rcases h' a F' h2 with ⟨b, F2, h3, h4⟩ | ⟨hm, m, F2, h3⟩
    · exact .inl ⟨b, F2, by rw [FProg.bind_def, h1]; exact h3, h4⟩
    · exact .inr ⟨hm, m, F2, by rw [FProg.bind_def, h1]; exact h3⟩
  · exact .inr ⟨hm, m, F', by rw [FProg.bind_def, h1]⟩

theorem Run.imp {α : Type} {may may' : Prop} {p : FProg α} {F : Factory} {Q Q' : α → Factory → Prop} (h : Run may p F Q)
    (hm : may → may') (hq : ∀ a F', Q a F' → Q' a F') : Run may' p F Q' := by
  rcases h with ⟨a, F', h1, h2⟩ | ⟨m, h⟩
  · exact .inl ⟨a, F', h1, hq _ _ h2⟩
  · exact .inr ⟨hm m, h⟩

theorem Run.throw {α : Type} {may : Prop} {m : String} {F : Factory} {Q : α → Factory → Prop} (h : may) :
    Run may (FProg.throw m : FProg α) F Q := .inr ⟨h, m, F, rfl⟩

/-! ### Maps -/

theorem lookup_assign (m : List (Str × Option Nat)) (k k' : Str) (v : Option Nat) :
    (Factory.assign m k v).lookup k' = if k' = k then some v else m.lookup k' := by
  induction m with
  | nil =>
    by_cases h : k' = k
    · simp [Factory.assign, h]
    · have : (k' == k) = false := by simpa using h
      simp [Factory.assign, h, List.lookup_cons, this]
  | cons e m ih =>
    obtain ⟨a, b⟩ := e
    rw [Factory.assign]
    by_cases h : k = a
    · subst h
      rw [if_pos rfl]
      by_cases h' : k' = k
      · simp [h']
      · have : (k' == k) = false := by simpa using h'
        simp [h', List.lookup_cons, this]
    · rw [if_neg h]
      by_cases h' : k' = a
      · subst h'
        have : ¬ k' = k := fun e => h e.symm
        simp [List.lookup_cons, this]
      · have h'' : (k' == a) = false := by simpa using h'
        simp only [List.lookup_cons, h'', ih]

theorem mem_names_of {F : Factory} {k : Str} {i : Nat} (h : ReaderFor F k i) : k ∈ names F := by
  have := lookup_mem h
  unfold names
  rw [List.mem_map]
  exact ⟨(k, some i), by simp [this], rfl⟩

/-! ### Primitive readers -/

theorem makeProperty_cases (k : Str) :
    (k ∈ readable ∧ ∃ p, makePropertyReader k = .ok p ∧ p.typeName = k) ∨
      (k ∉ readable ∧ ∃ m, makePropertyReader k = .throw m) := by
  by_cases h : k ∈ readable
  · refine .inl ⟨h, ?_⟩
    have : ∀ k ∈ readable, ∃ p ∈ [PrimReader.int, .long, .double, .boolean, .string, .float, .binary],
        makePropertyReader k = .ok p ∧ p.typeName = k := by decide +kernel
    obtain ⟨p, -, hp⟩ := this k h
    exact ⟨p, hp⟩
  · refine .inr ⟨h, "THIS IS BAD", ?_⟩
    simp only [readable, List.map_cons, List.map_nil, List.mem_cons, List.not_mem_nil, or_false, not_or] at h
    obtain ⟨h1, h2, h3, h4, h5, h6, h7⟩ := h
    unfold makePropertyReader
    rw [if_neg h1, if_neg h2, if_neg h3, if_neg h4, if_neg h5, if_neg h6, if_neg h7]

theorem readable_of_ok {k : Str} {p : PrimReader} (h : makePropertyReader k = .ok p) : k ∈ readable := by
  rcases makeProperty_cases k with h' | ⟨-, m, h'⟩
  · exact h'.1
  · rw [h'] at h; cases h

theorem readable_primitive : ∀ k ∈ readable, typeIsPrimitive k = true := by decide +kernel

/-! ### The invariant -/

/-- Nothing known before is changed. -/
structure Grow (F F' : Factory) : Prop where
  objs : ∀ (i : Nat) (o : Ser), F.objs[i]? = some o → F'.objs[i]? = some o
  types : ∀ k i, ReaderFor F k i → ReaderFor F' k i
  desc : F'.byDesc = F.byDesc

theorem Grow.refl (F : Factory) : Grow F F := ⟨fun _ _ h => h, fun _ _ h => h, rfl⟩
theorem Grow.trans {A B C : Factory} (h : Grow A B) (h' : Grow B C) : Grow A C :=
  ⟨fun i o x => h'.objs i o (h.objs i o x), fun k i x => h'.types k i (h.types k i x), h'.desc.trans h.desc⟩

/-- What an entry is: a primitive reader, a reader for one of the types `ts`, or one known beforehand. -/
def EntryOk (F : Factory) (ts : List TypeNotation) (cs : List Str) (k : Str) (o : Ser) : Prop :=
  (∃ p, makePropertyReader k = .ok p ∧ o.kind = .prim p) ∨ (∃ t ∈ ts, t.name = k ∧ Built F t o) ∨ k ∈ cs

/-- The state between two steps.  `K`: the names known, beside primitive ones; `H`: objects not yet entered. -/
structure Inv (F : Factory) (K : List Str) (ts : List TypeNotation) (cs : List Str) (H : List Nat) : Prop where
  clean : Sane F
  entry : ∀ k (i : Nat) o, ReaderFor F k i → F.objs[i]? = some o → EntryOk F ts cs k o
  known : ∀ k ∈ K, ∃ i, ReaderFor F k i
  only : ∀ k i, ReaderFor F k i → k ∈ K ∨ k ∈ readable
  held : ∀ h ∈ H, h < F.objs.length ∧ ∀ k i, ReaderFor F k i → i ≠ h

theorem Built.grow {F F' : Factory} (h : Grow F F') {t : TypeNotation} {o : Ser} (hb : Built F t o) : Built F' t o := by
  cases t with
  | comp c =>
    obtain ⟨h1, h2, h3⟩ := hb
    refine ⟨h1, h2, fun f j hm => ?_⟩
    obtain ⟨t, ht, hj⟩ := h3 f j hm
    exact ⟨t, ht, h.types _ _ hj⟩
  | restr r =>
    unfold Built at hb ⊢
    dsimp only at hb ⊢
    cases hk : r.kind with
    | list l =>
      simp only [hk] at hb ⊢
      obtain ⟨h1, j, h2, h3⟩ := hb
      exact ⟨h1, j, h2, h.types _ _ h3⟩
    | array l =>
      simp only [hk] at hb ⊢
      obtain ⟨h1, j, h2, h3⟩ := hb
      exact ⟨h1, j, h2, h.types _ _ h3⟩
    | map k v =>
      simp only [hk] at hb ⊢
      obtain ⟨h1, j, j', h2, h3, h4⟩ := hb
      exact ⟨h1, j, j', h2, h.types _ _ h3, h.types _ _ h4⟩
    | enum cs => simpa only [hk] using hb

theorem EntryOk.grow {F F' : Factory} (h : Grow F F') {ts ts' : List TypeNotation} (hs : ∀ t ∈ ts, t ∈ ts') {cs : List Str}
    {k : Str} {o : Ser} (he : EntryOk F ts cs k o) : EntryOk F' ts' cs k o := by
  rcases he with h1 | ⟨t, h1, h2, h3⟩ | h1
  · exact .inl h1
  · exact .inr (.inl ⟨t, hs t h1, h2, h3.grow h⟩)
  · exact .inr (.inr h1)

/-- The only entry that matters is the first, and none is null. -/
theorem Inv.cases {F : Factory} {K : List Str} {ts : List TypeNotation} {cs : List Str} {H : List Nat}
    (h : Inv F K ts cs H) (k : Str) : F.byType.lookup k = none ∨ ∃ i, ReaderFor F k i := by
  cases hk : F.byType.lookup k with
  | none => exact .inl rfl
  | some e =>
    obtain ⟨i, o, rfl, -, -⟩ := h.clean k e hk
    exact .inr ⟨i, hk⟩

theorem getElem?_snoc {α : Type} {l : List α} {a b : α} {i : Nat} (h : l[i]? = some b) : (l ++ [a])[i]? = some b := by
  rw [List.getElem?_append_left (List.getElem?_eq_some_iff.mp h).1]; exact h

/-- Making an object changes no entry. -/
theorem Inv.make {F : Factory} {K : List Str} {ts : List TypeNotation} {cs : List Str} {H : List Nat}
    (h : Inv F K ts cs H) (s : Ser) :
    Inv { F with objs := F.objs ++ [s] } K ts cs (F.objs.length :: H) ∧ Grow F { F with objs := F.objs ++ [s] } := by
  have hg : Grow F { F with objs := F.objs ++ [s] } :=
    ⟨fun i o x => getElem?_snoc x, fun k i x => x, rfl⟩
  refine ⟨⟨?_, ?_, h.known, h.only, ?_⟩, hg⟩
  · intro k e hk
    obtain ⟨i, o, h1, h2, h3⟩ := h.clean k e hk
    exact ⟨i, o, h1, getElem?_snoc h2, h3⟩
  · intro k i o hk ho
    obtain ⟨i', o', h1, h2, h3⟩ := h.clean k _ hk
    cases h1
    have : o = o' := by
      have := getElem?_snoc (a := s) h2
      simp only at ho
      rw [this] at ho; exact (Option.some.inj ho).symm
    subst this
    exact (h.entry k i o hk h2).grow hg (fun _ x => x)
  · intro x hx
    rcases List.mem_cons.mp hx with rfl | hx
    · refine ⟨by simp, fun k i hk => ?_⟩
      obtain ⟨i', o', h1, h2, h3⟩ := h.clean k _ hk
      cases h1
      have := (List.getElem?_eq_some_iff.mp h2).1
      omega
    · obtain ⟨h1, h2⟩ := h.held x hx
      exact ⟨by simp; omega, h2⟩

/-- Entering a held object under a name not known. -/
theorem Inv.enter {F : Factory} {K : List Str} {ts : List TypeNotation} {cs : List Str} {H : List Nat} {i : Nat} {k : Str}
    {o : Ser} (h : Inv F K ts cs (i :: H)) (hk : F.byType.lookup k = none) (ho : F.objs[i]? = some o) (ht : o.type = k)
    (ts' : List TypeNotation) (hs : ∀ t ∈ ts, t ∈ ts')
    (he : EntryOk { F with byType := Factory.assign F.byType k (some i) } ts' cs k o)
    (K' : List Str) (hK : ∀ n, n ∈ K' → n = k ∨ n ∈ K) (hK' : ∀ n, n ∈ K → n ∈ K') (hK2 : k ∈ K' ∨ k ∈ readable)
    (hH : i ∉ H) :
    Inv { F with byType := Factory.assign F.byType k (some i) } K' ts' cs H ∧
      Grow F { F with byType := Factory.assign F.byType k (some i) } ∧
      ReaderFor { F with byType := Factory.assign F.byType k (some i) } k i := by
  have hr : ∀ k' j, ReaderFor { F with byType := Factory.assign F.byType k (some i) } k' j ↔
      if k' = k then i = j else ReaderFor F k' j := by
    intro k' j
    simp only [ReaderFor, lookup_assign]
    by_cases e : k' = k <;> simp [e]
  have hg : Grow F { F with byType := Factory.assign F.byType k (some i) } := by
    refine ⟨fun _ _ x => x, fun k' j x => ?_, rfl⟩
    rw [hr]
    by_cases e : k' = k
    · subst e
      have := hk.symm.trans x
      cases this
    · rw [if_neg e]; exact x
  refine ⟨⟨?_, ?_, ?_, ?_, ?_⟩, hg, (hr k i).mpr (by simp)⟩
  · intro k' e hk'
    simp only [lookup_assign] at hk'
    by_cases e' : k' = k
    · rw [if_pos e'] at hk'
      cases hk'
      exact ⟨i, o, rfl, ho, ht.trans e'.symm⟩
    · rw [if_neg e'] at hk'
      exact h.clean k' e hk'
  · intro k' j o' hk' ho'
    have := (hr k' j).mp hk'
    by_cases e' : k' = k
    · rw [if_pos e'] at this
      subst this
      subst e'
      simp only [ho, Option.some.injEq] at ho'
      subst ho'
      exact he
    · rw [if_neg e'] at this
      exact (h.entry k' j o' this ho').grow hg hs
  · intro n hn
    rcases hK n hn with rfl | hn
    · exact ⟨i, (hr _ _).mpr (by simp)⟩
    · obtain ⟨j, hj⟩ := h.known n hn
      exact ⟨j, hg.types _ _ hj⟩
  · intro k' j hk'
    have := (hr k' j).mp hk'
    by_cases e' : k' = k
    · subst e'; exact hK2
    · rw [if_neg e'] at this
      rcases h.only k' j this with h | h
      · exact .inl (hK' _ h)
      · exact .inr h
  · intro x hx
    obtain ⟨h1, h2⟩ := h.held x (List.mem_cons_of_mem _ hx)
    refine ⟨h1, fun k' j hk' => ?_⟩
    have := (hr k' j).mp hk'
    by_cases e' : k' = k
    · rw [if_pos e'] at this
      subst this
      intro e
      subst e
      exact hH hx
    · rw [if_neg e'] at this
      exact h2 k' j this

/-! ### The steps -/

/-- `computeIfAbsent` for a primitive type. -/
theorem run_prim {F : Factory} {K : List Str} {ts : List TypeNotation} {cs : List Str} {H : List Nat}
    (h : Inv F K ts cs H) (k : Str) :
    Run (¬ elemServed K k) (computeIfAbsent k (makeProperty k)) F (fun i F' =>
      elemServed K k ∧ Inv F' K ts cs H ∧ Grow F F' ∧ ReaderFor F' k i) := by
  rcases h.cases k with hk | ⟨i, hi⟩
  · have hnK : k ∉ K := by
      intro hK
      obtain ⟨i, hi⟩ := h.known k hK
      have := hk.symm.trans hi
      cases this
    rcases makeProperty_cases k with ⟨hr, p, hp, hpn⟩ | ⟨hr, m, hm⟩
    · left
      obtain ⟨h1, h2⟩ := h.make ⟨.prim p, p.typeName, []⟩
      have hm : ({ F with objs := F.objs ++ [⟨.prim p, p.typeName, []⟩] } : Factory).objs[F.objs.length]? =
        some ⟨.prim p, p.typeName, []⟩ := by simp
      obtain ⟨h3, h4, h5⟩ := h1.enter (k := k) hk hm hpn ts (fun _ x => x) (.inl ⟨p, hp, rfl⟩) K (fun _ x => .inr x)
        (fun _ x => x) (.inr hr) (fun hx => by have := (h.held _ hx).1; omega)
      refine ⟨F.objs.length, _, ?_, .inl hr, h3, h2.trans h4, h5⟩
      unfold computeIfAbsent
      rw [hk]
      simp only [makeProperty, FProg.bind_def, FProg.lift, hp, FProg.make, FProg.setType]
      simp [hpn, FProg.pure_def]
    · right
      refine ⟨fun hs => hs.elim hr hnK, m, F, ?_⟩
      unfold computeIfAbsent
      rw [hk]
      simp only [makeProperty, FProg.bind_def, FProg.lift, hm]
  · left
    refine ⟨i, F, ?_, ?_, h, Grow.refl F, hi⟩
    · unfold computeIfAbsent
      have : F.byType.lookup k = some (some i) := hi
      rw [this]
    · rcases h.only k i hi with h | h
      · exact .inr h
      · exact .inl h

/-- `m_serialisersByType[k]` of a name that is not primitive. -/
theorem run_typeAt {F : Factory} {K : List Str} {ts : List TypeNotation} {cs : List Str} {H : List Nat}
    (h : Inv F K ts cs H) (k : Str) (hk : k ∉ readable) :
    (∃ i, k ∈ K ∧ typeAt k F = (.ok (some i), F) ∧ ReaderFor F k i) ∨
      (k ∉ K ∧ ∃ F', typeAt k F = (.ok none, F')) := by
  rcases h.cases k with hn | ⟨i, hi⟩
  · right
    refine ⟨fun hK => ?_, ⟨F.objs, Factory.assign F.byType k none, F.byDesc⟩, ?_⟩
    · obtain ⟨i, hi⟩ := h.known k hK
      have := hn.symm.trans hi
      cases this
    · simp [typeAt, Factory.subscript, hn]
  · left
    refine ⟨i, (h.only k i hi).resolve_right hk, ?_, hi⟩
    have : F.byType.lookup k = some (some i) := hi
    simp [typeAt, Factory.subscript, this]

/-- `fetchReaderForRestricted`. -/
theorem run_fetch {F : Factory} {K : List Str} {ts : List TypeNotation} {cs : List Str} {H : List Nat}
    (h : Inv F K ts cs H) (k : Str) :
    Run (¬ elemServed K k) (fetchReader k) F (fun i F' =>
      elemServed K k ∧ Inv F' K ts cs H ∧ Grow F F' ∧ ReaderFor F' k i) := by
  unfold fetchReader
  by_cases hp : typeIsPrimitive k = true
  · simp only [hp, if_true]
    refine Run.bind (Q := fun r F' => ∃ i, r = some i ∧ elemServed K k ∧ Inv F' K ts cs H ∧ Grow F F' ∧ ReaderFor F' k i)
      (Run.bind (run_prim h k) (fun i F' hq => Run.pure ⟨i, rfl, hq⟩)) ?_
    rintro r F' ⟨i, rfl, hq⟩
    exact Run.pure hq
  · have hr : k ∉ readable := fun hr => hp (readable_primitive k hr)
    simp only [hp, Bool.false_eq_true, if_false]
    rcases run_typeAt h k hr with ⟨i, h1, h2, h3⟩ | ⟨h1, F', h2⟩
    · left
      exact ⟨i, F, by rw [FProg.bind_def, h2]; rfl, .inr h1, h, Grow.refl F, h3⟩
    · right
      exact ⟨fun hs => hs.elim hr h1, _, F', by rw [FProg.bind_def, h2]; rfl⟩

theorem resolved_of_named {f : Field} {t : Str} : fieldTypeName f = some t ↔ f.resolvedType = .ok t := by
  unfold fieldTypeName Field.resolvedType
  cases f.kind <;> simp [front] <;> cases f.requires <;> simp

/-- One field. -/
theorem run_field {F : Factory} {K : List Str} {ts : List TypeNotation} {cs : List Str} {H : List Nat}
    (h : Inv F K ts cs H) (self : Str) (rtn : Nat) (f : Field) (hf : PlainField f) :
    (∃ j t F', fieldReader self rtn f F = (.ok (some j), F') ∧ fieldServed K self f ∧ Inv F' K ts cs H ∧ Grow F F' ∧
        f.resolvedType = .ok t ∧ (t = self ∧ j = rtn ∨ ReaderFor F' t j)) ∨
      (¬ fieldServed K self f ∧ ((∃ F', fieldReader self rtn f F = (.ok none, F')) ∨
        ∃ m F', fieldReader self rtn f F = (.throw m, F'))) := by
  obtain ⟨hc, ⟨t, ht⟩, hn⟩ := hf
  have hrt := resolved_of_named.mp ht
  by_cases hp : f.kind = .primitive
  · have hty : f.type = t := by simpa [fieldTypeName, hp] using ht
    have hS : fieldServed K self f ↔ elemServed K t := by simp [fieldServed, hp, elemServed, hty]
    have hA : f.AMQPType = .primitive_t := by simp [Field.AMQPType, hp]
    have hE : fieldReader self rtn f F = (do
        let i ← computeIfAbsent t (makeProperty t)
        pure (some i) : FProg (Option Nat)) F := by
      unfold fieldReader
      simp only [hA, hty]
      rw [FProg.bind_def, FProg.lift, hrt]
    rw [hE, hS]
    rcases run_prim h t with ⟨i, F', h1, h2, h3, h4, h5⟩ | ⟨h1, m, F', h2⟩
    · left
      exact ⟨i, t, F', by rw [FProg.bind_def, h1]; rfl, h2, h3, h4, hrt, .inr h5⟩
    · right
      exact ⟨h1, .inr ⟨m, F', by rw [FProg.bind_def, h2]⟩⟩
  · have htr := hn hp t ht
    have hS : fieldServed K self f ↔ t = self ∨ t ∈ K := by
      unfold fieldServed
      cases hk : f.kind <;> simp_all
    have hE : fieldReader self rtn f F = (if t = self then pure (some rtn) else typeAt t : FProg (Option Nat)) F := by
      unfold fieldReader
      cases hk : f.kind <;> simp_all [Field.AMQPType, FProg.bind_def, FProg.lift]
    rw [hE, hS]
    by_cases hts : t = self
    · left
      exact ⟨rtn, t, F, by rw [if_pos hts]; rfl, .inl hts, h, Grow.refl F, hrt, .inl ⟨hts, rfl⟩⟩
    · rw [if_neg hts]
      rcases run_typeAt h t htr with ⟨i, h1, h2, h3⟩ | ⟨h1, F', h2⟩
      · left
        exact ⟨i, t, F, h2, .inr h1, h, Grow.refl F, hrt, .inr h3⟩
      · right
        exact ⟨fun hs => hs.elim hts h1, .inl ⟨F', h2⟩⟩

/-- All fields. -/
theorem run_fields {K : List Str} {ts : List TypeNotation} {cs : List Str} {H : List Nat} (self : Str) (rtn : Nat)
    (fs : List Field) (hf : ∀ f ∈ fs, PlainField f) {F : Factory} (h : Inv F K ts cs H) :
    Run (¬ ∀ f ∈ fs, fieldServed K self f) (fieldReaders self rtn fs) F (fun js F' =>
      (∀ f ∈ fs, fieldServed K self f) ∧ Inv F' K ts cs H ∧ Grow F F' ∧ js.length = fs.length ∧
      ∀ f j, (f, j) ∈ fs.zip js → ∃ t, f.resolvedType = .ok t ∧ (t = self ∧ j = rtn ∨ ReaderFor F' t j)) := by
  induction fs generalizing F with
  | nil => exact Run.pure ⟨by simp, h, Grow.refl F, rfl, by simp⟩
  | cons f fs ih =>
    rcases run_field h self rtn f (hf f List.mem_cons_self) with
      ⟨j, t, F', h1, h2, h3, h4, h5, h6⟩ | ⟨h1, h2⟩
    · rcases ih (fun f hm => hf f (List.mem_cons_of_mem _ hm)) h3 with
        ⟨js, F2, g1, g2, g3, g4, g5, g6⟩ | ⟨g1, m, F2, g2⟩
      · left
        refine ⟨j :: js, F2, ?_, ?_, g3, h4.trans g4, by simp [g5], ?_⟩
        · rw [fieldReaders, FProg.bind_def, h1]
          simp only [FProg.bind_def, g1, FProg.pure_def]
        · simp only [List.mem_cons, forall_eq_or_imp]; exact ⟨h2, g2⟩
        · intro f' j' hm
          rw [List.zip_cons_cons, List.mem_cons] at hm
          rcases hm with hm | hm
          · cases hm
            refine ⟨t, h5, h6.imp id (fun x => g4.types _ _ x)⟩
          · exact g6 f' j' hm
      · right
        refine ⟨fun hs => g1 (fun f hm => hs f (List.mem_cons_of_mem _ hm)), m, F2, ?_⟩
        rw [fieldReaders, FProg.bind_def, h1]
        simp only [FProg.bind_def, g2]
    · right
      refine ⟨fun hs => h1 (hs f List.mem_cons_self), ?_⟩
      rcases h2 with ⟨F', h2⟩ | ⟨m, F', h2⟩
      · exact ⟨"Can't find", F', by rw [fieldReaders, FProg.bind_def, h2]; rfl⟩
      · exact ⟨m, F', by rw [fieldReaders, FProg.bind_def, h2]⟩

/-- Filling in the readers of an object not yet entered. -/
theorem Inv.install {F : Factory} {K : List Str} {ts : List TypeNotation} {cs : List Str} {H : List Nat} {i : Nat}
    (h : Inv F K ts cs (i :: H)) (g : Ser → Ser) :
    Inv { F with objs := F.objs.modify i g } K ts cs (i :: H) := by
  have same : ∀ k j, ReaderFor F k j → (F.objs.modify i g)[j]? = F.objs[j]? := by
    intro k j hj
    have := (h.held i List.mem_cons_self).2 k j hj
    simp [List.getElem?_modify, Ne.symm this]
  have hgr : ∀ k j, ReaderFor F k j → ReaderFor { F with objs := F.objs.modify i g } k j := fun _ _ x => x
  refine ⟨?_, ?_, h.known, h.only, ?_⟩
  · intro k e hk
    obtain ⟨j, o, rfl, h2, h3⟩ := h.clean k e hk
    exact ⟨j, o, rfl, (same k j hk).trans h2, h3⟩
  · intro k j o hk ho
    have ho' : F.objs[j]? = some o := (same k j hk).symm.trans ho
    exact h.entry k j o hk ho'
  · intro x hx
    obtain ⟨h1, h2⟩ := h.held x hx
    exact ⟨by simpa using h1, h2⟩

/-- A composite type that is not known yet. -/
theorem run_composite {F : Factory} {K : List Str} {ts : List TypeNotation} {cs : List Str}
    (h : Inv F K ts cs []) (c : Composite) (hf : ∀ f ∈ c.fields, PlainField f) (hn : c.name ∉ readable) (hk : c.name ∉ K) :
    Run (¬ served K (.comp c)) (computeIfAbsent c.name (processComposite c)) F (fun i F' =>
      served K (.comp c) ∧ Inv F' (c.name :: K) (.comp c :: ts) cs [] ∧ Grow F F' ∧ ReaderFor F' c.name i) := by
  have absent : ∀ F' : Factory, Inv F' K ts cs [F.objs.length] → F'.byType.lookup c.name = none := by
    intro F' h'
    rcases h'.cases c.name with h1 | ⟨i, hi⟩
    · exact h1
    · exact absurd (h'.only _ _ hi) (fun h => h.elim hk hn)
  have ha : F.byType.lookup c.name = none := by
    rcases h.cases c.name with h1 | ⟨i, hi⟩
    · exact h1
    · exact absurd (h.only _ _ hi) (fun h => h.elim hk hn)
  obtain ⟨h1, h2⟩ := h.make ⟨.composite, c.name, []⟩
  have hm : ({ F with objs := F.objs ++ [⟨.composite, c.name, []⟩] } : Factory).objs[F.objs.length]? =
      some ⟨.composite, c.name, []⟩ := by simp
  rcases run_fields c.name F.objs.length c.fields hf h1 with ⟨js, F2, g1, g2, g3, g4, g5, g6⟩ | ⟨g1, m, F2, g2⟩
  · left
    have hm2 := g4.objs _ _ hm
    have h3 := g3.install (fun s => { s with subs := js })
    have hm3 : ({ F2 with objs := F2.objs.modify F.objs.length (fun s => { s with subs := js }) } : Factory).objs[F.objs.length]? =
        some ⟨.composite, c.name, js⟩ := by
      simp only [List.getElem?_modify, hm2]; simp
    have hg3 : Grow F { F2 with objs := F2.objs.modify F.objs.length (fun s => { s with subs := js }) } := by
      refine ⟨fun i o ho => ?_, fun k i x => g4.types k i (h2.types k i x), g4.desc⟩
      have hlt := (List.getElem?_eq_some_iff.mp ho).1
      have := g4.objs i o (h2.objs i o ho)
      have hne : ¬ F.objs.length = i := by omega
      simp [List.getElem?_modify, hne, this]
    obtain ⟨h4, h5, h6⟩ := h3.enter (k := c.name) (absent F2 g3) hm3 rfl (.comp c :: ts)
      (fun _ x => List.mem_cons_of_mem _ x)
      (.inr (.inl ⟨.comp c, List.mem_cons_self, rfl, rfl, g5, by
        intro f j hfj
        obtain ⟨t, ht, hj⟩ := g6 f j hfj
        refine ⟨t, ht, ?_⟩
        rcases hj with ⟨rfl, rfl⟩ | hj
        · simp [ReaderFor, lookup_assign]
        · have hne : t ≠ c.name := by
            rintro rfl
            have := (absent F2 g3).symm.trans hj
            cases this
          simp only [ReaderFor, lookup_assign, if_neg hne]
          exact hj⟩)) (c.name :: K) (fun n hn => by simpa using hn) (fun n hn => List.mem_cons_of_mem _ hn)
      (.inl List.mem_cons_self) (by simp)
    refine ⟨F.objs.length, _, ?_, g2, h4, hg3.trans h5, h6⟩
    unfold computeIfAbsent
    rw [ha]
    simp only [processComposite, FProg.bind_def, FProg.make, g1, FProg.install, FProg.pure_def, FProg.setType, hm3]
    simp
    rfl
  · right
    refine ⟨g1, m, F2, ?_⟩
    unfold computeIfAbsent
    rw [ha]
    simp only [processComposite, FProg.bind_def, FProg.make, g2]

/-- The end of making a restricted type: the object is made and entered. -/
theorem run_made {F : Factory} {K : List Str} {ts : List TypeNotation} {cs : List Str} {F2 : Factory}
    (r : Restricted) (hn : r.name ∉ readable) (hk : r.name ∉ K) (hg : Grow F F2) (h2 : Inv F2 K ts cs [])
    (o : Ser) (ho : o.type = r.name) (hb : ∀ F', Grow F2 F' → Built F' (.restr r) o)
    {p : FProg Nat} (hp : p F = FProg.make o F2) (ha : F.byType.lookup r.name = none) :
    ∃ i F', computeIfAbsent r.name p F = (.ok i, F') ∧ Inv F' (r.name :: K) (.restr r :: ts) cs [] ∧ Grow F F' ∧
      ReaderFor F' r.name i := by
  have ha2 : F2.byType.lookup r.name = none := by
    rcases h2.cases r.name with h1 | ⟨i, hi⟩
    · exact h1
    · exact absurd (h2.only _ _ hi) (fun h => h.elim hk hn)
  obtain ⟨h3, h4⟩ := h2.make o
  have hm : ({ F2 with objs := F2.objs ++ [o] } : Factory).objs[F2.objs.length]? = some o := by simp
  have hgr : Grow F2 { { F2 with objs := F2.objs ++ [o] } with
      byType := Factory.assign F2.byType r.name (some F2.objs.length) } := by
    refine h4.trans ⟨fun _ _ x => x, fun k i x => ?_, rfl⟩
    have hne : k ≠ r.name := by
      rintro rfl
      have := ha2.symm.trans x
      cases this
    simp only [ReaderFor, lookup_assign, if_neg hne]
    exact x
  obtain ⟨h5, h6, h7⟩ := h3.enter (k := r.name) ha2 hm ho (.restr r :: ts) (fun _ x => List.mem_cons_of_mem _ x)
    (.inr (.inl ⟨.restr r, List.mem_cons_self, rfl, hb _ hgr⟩)) (r.name :: K)
    (fun n hn => by simpa using hn) (fun n hn => List.mem_cons_of_mem _ hn) (.inl List.mem_cons_self) (by simp)
  refine ⟨F2.objs.length, _, ?_, h5, hg.trans hgr, h7⟩
  unfold computeIfAbsent
  rw [ha]
  simp only [FProg.bind_def, hp, FProg.make, FProg.setType]
  simp [ho]
  rfl

/-- A restricted type that is not known yet. -/
theorem run_restricted {F : Factory} {K : List Str} {ts : List TypeNotation} {cs : List Str} (lf : Bool)
    (h : Inv F K ts cs []) (r : Restricted) (hn : r.name ∉ readable) (hk : r.name ∉ K) :
    Run (¬ served K (.restr r)) (computeIfAbsent r.name (processRestricted lf r)) F (fun i F' =>
      served K (.restr r) ∧ Inv F' (r.name :: K) (.restr r :: ts) cs [] ∧ Grow F F' ∧ ReaderFor F' r.name i) := by
  have ha : F.byType.lookup r.name = none := by
    rcases h.cases r.name with h1 | ⟨i, hi⟩
    · exact h1
    · exact absurd (h.only _ _ hi) (fun h => h.elim hk hn)
  have fail : ∀ {m F'}, processRestricted lf r F = (.throw m, F') →
      computeIfAbsent r.name (processRestricted lf r) F = (.throw m, F') := by
    intro m F' e
    unfold computeIfAbsent
    rw [ha]
    simp only [FProg.bind_def, e]
  cases hkind : r.kind with
  | enum cs' =>
    left
    obtain ⟨i, F', g1, g2⟩ := run_made r hn hk (Grow.refl F) h ⟨.enum cs', r.name, []⟩ rfl
      (fun F' _ => by simp [Built, hkind]) (p := processRestricted lf r) (by simp only [processRestricted, hkind]) ha
    exact ⟨i, F', g1, by simp [served, hkind], g2⟩
  | list l =>
    have hS : served K (.restr r) ↔ elemServed K l := by simp [served, hkind]
    rw [hS]
    rcases run_fetch h l with ⟨j, F2, h1, h2, h3, h4, h5⟩ | ⟨h1, m, F2, h2⟩
    · left
      obtain ⟨i, F', g1, g2⟩ := run_made r hn hk h4 h3 ⟨.list, r.name, [j]⟩ rfl
        (fun F' hg => by simp only [Built, hkind]; exact ⟨trivial, j, rfl, hg.types _ _ h5⟩) (p := processRestricted lf r)
        (by simp only [processRestricted, hkind]; rw [FProg.bind_def, h1]) ha
      exact ⟨i, F', g1, h2, g2⟩
    · exact .inr ⟨h1, m, F2, fail (by simp only [processRestricted, hkind]; rw [FProg.bind_def, h2])⟩
  | array l =>
    have hS : served K (.restr r) ↔ elemServed K l := by simp [served, hkind]
    rw [hS]
    rcases run_fetch h l with ⟨j, F2, h1, h2, h3, h4, h5⟩ | ⟨h1, m, F2, h2⟩
    · left
      obtain ⟨i, F', g1, g2⟩ := run_made r hn hk h4 h3 ⟨.array, r.name, [j]⟩ rfl
        (fun F' hg => by simp only [Built, hkind]; exact ⟨trivial, j, rfl, hg.types _ _ h5⟩) (p := processRestricted lf r)
        (by simp only [processRestricted, hkind]; rw [FProg.bind_def, h1]) ha
      exact ⟨i, F', g1, h2, g2⟩
    · exact .inr ⟨h1, m, F2, fail (by simp only [processRestricted, hkind]; rw [FProg.bind_def, h2])⟩
  | map k v =>
    have hS : served K (.restr r) ↔ elemServed K k ∧ elemServed K v := by simp [served, hkind]
    rw [hS]
    cases lf with
    | true =>
      rcases run_fetch h k with ⟨j, F2, h1, h2, h3, h4, h5⟩ | ⟨h1, m, F2, h2⟩
      · rcases run_fetch h3 v with ⟨j', F3, g1, g2, g3, g4, g5⟩ | ⟨g1, m, F3, g2⟩
        · left
          obtain ⟨i, F', k1, k2⟩ := run_made r hn hk (h4.trans g4) g3 ⟨.map, r.name, [j, j']⟩ rfl
            (fun F' hg => by
              simp only [Built, hkind]
              exact ⟨trivial, j, j', rfl, hg.types _ _ (g4.types _ _ h5), hg.types _ _ g5⟩) (p := processRestricted true r)
            (by simp only [processRestricted, hkind, if_true]; rw [FProg.bind_def, h1]; dsimp only; rw [FProg.bind_def, g1]) ha
          exact ⟨i, F', k1, ⟨h2, g2⟩, k2⟩
        · exact .inr ⟨fun hs => g1 hs.2, m, F3, fail (by
            simp only [processRestricted, hkind, if_true]; rw [FProg.bind_def, h1]; dsimp only; rw [FProg.bind_def, g2])⟩
      · exact .inr ⟨fun hs => h1 hs.1, m, F2, fail (by simp only [processRestricted, hkind, if_true]; rw [FProg.bind_def, h2])⟩
    | false =>
      rcases run_fetch h v with ⟨j, F2, h1, h2, h3, h4, h5⟩ | ⟨h1, m, F2, h2⟩
      · rcases run_fetch h3 k with ⟨j', F3, g1, g2, g3, g4, g5⟩ | ⟨g1, m, F3, g2⟩
        · left
          obtain ⟨i, F', k1, k2⟩ := run_made r hn hk (h4.trans g4) g3 ⟨.map, r.name, [j', j]⟩ rfl
            (fun F' hg => by
              simp only [Built, hkind]
              exact ⟨trivial, j', j, rfl, hg.types _ _ g5, hg.types _ _ (g4.types _ _ h5)⟩) (p := processRestricted false r)
            (by simp only [processRestricted, hkind, Bool.false_eq_true, if_false]; rw [FProg.bind_def, h1]; dsimp only; rw [FProg.bind_def, g1]) ha
          exact ⟨i, F', k1, ⟨g2, h2⟩, k2⟩
        · exact .inr ⟨fun hs => g1 hs.1, m, F3, fail (by
            simp only [processRestricted, hkind, Bool.false_eq_true, if_false]; rw [FProg.bind_def, h1]; dsimp only; rw [FProg.bind_def, g2])⟩
      · exact .inr ⟨fun hs => h1 hs.2, m, F2, fail (by
          simp only [processRestricted, hkind, Bool.false_eq_true, if_false]; rw [FProg.bind_def, h2])⟩

theorem Inv.more {F : Factory} {K : List Str} {ts : List TypeNotation} {cs : List Str} {H : List Nat}
    (h : Inv F K ts cs H) (t : TypeNotation) (ht : t.name ∈ K) : Inv F (t.name :: K) (t :: ts) cs H :=
  ⟨h.clean, fun k i o hk ho => (h.entry k i o hk ho).grow (Grow.refl F) (fun _ x => List.mem_cons_of_mem _ x),
    fun k hk => (List.mem_cons.mp hk).elim (fun e => e ▸ h.known _ ht) (h.known _),
    fun k i hk => (h.only k i hk).imp (List.mem_cons_of_mem _) id, h.held⟩

/-- One type. -/
theorem run_type {F : Factory} {K : List Str} {ts : List TypeNotation} {cs : List Str} (lf : Bool)
    (h : Inv F K ts cs []) (t : TypeNotation) (ht : PlainType t) :
    Run (¬ (t.name ∈ K ∨ served K t)) (processType lf t) F (fun i F' =>
      (t.name ∈ K ∨ served K t) ∧ Inv F' (t.name :: K) (t :: ts) cs [] ∧ Grow F F' ∧ ReaderFor F' t.name i) := by
  by_cases hk : t.name ∈ K
  · obtain ⟨i, hi⟩ := h.known _ hk
    left
    refine ⟨i, F, ?_, .inl hk, h.more t hk, Grow.refl F, hi⟩
    unfold processType computeIfAbsent
    have : F.byType.lookup t.name = some (some i) := hi
    rw [this]
  · cases t with
    | comp c =>
      exact (run_composite h c (ht.2 c rfl) ht.1 hk).imp (fun h1 h2 => h1 (h2.resolve_left hk)) (fun _ _ h => ⟨.inr h.1, h.2⟩)
    | restr r =>
      exact (run_restricted lf h r ht.1 hk).imp (fun h1 h2 => h1 (h2.resolve_left hk)) (fun _ _ h => ⟨.inr h.1, h.2⟩)

/-- One type, entered by descriptor as well. -/
theorem run_one {F : Factory} {K : List Str} {ts : List TypeNotation} {cs : List Str} (lf : Bool)
    (h : Inv F K ts cs []) (t : TypeNotation) (ht : PlainType t) :
    Run (¬ (t.name ∈ K ∨ served K t)) (processOne lf t) F (fun _ F' =>
      (t.name ∈ K ∨ served K t) ∧ Inv F' (t.name :: K) (t :: ts) cs [] ∧
      (∀ (i : Nat) (o : Ser), F.objs[i]? = some o → F'.objs[i]? = some o) ∧
      (∀ k i, ReaderFor F k i → ReaderFor F' k i) ∧
      ∃ i, ReaderFor F' t.name i ∧ ∀ d, F'.byDesc.lookup d = if d = t.descriptor then some (some i) else F.byDesc.lookup d) := by
  rcases run_type lf h t ht with ⟨i, F', h1, h2, h3, h4, h5⟩ | ⟨h1, m, F', h2⟩
  · left
    refine ⟨(), { F' with byDesc := Factory.assign F'.byDesc t.descriptor (some i) }, ?_, h2, ?_, h4.objs, h4.types, i, h5, ?_⟩
    · have : F'.byType.lookup t.name = some (some i) := h5
      unfold processOne
      rw [FProg.bind_def, h1]
      simp [FProg.bind_def, typeAt, Factory.subscript, this, setDesc]
    · exact ⟨h3.clean, h3.entry, h3.known, h3.only, h3.held⟩
    · intro d
      simp only [lookup_assign, h4.desc]
  · right
    exact ⟨h1, m, F', by unfold processOne; rw [FProg.bind_def, h2]⟩

/-- All types. -/
theorem run_all (lf : Bool) (ts : List TypeNotation) (ht : ∀ t ∈ ts, PlainType t) {F : Factory} {K : List Str}
    {before : List TypeNotation} {cs : List Str} (h : Inv F K before cs []) :
    Run (¬ Ordered K ts) (processAll lf ts) F (fun _ F' =>
      Ordered K ts ∧ Inv F' ((ts.map TypeNotation.name).reverse ++ K) (ts.reverse ++ before) cs [] ∧
      (∀ (i : Nat) (o : Ser), F.objs[i]? = some o → F'.objs[i]? = some o) ∧
      (∀ k i, ReaderFor F k i → ReaderFor F' k i) ∧
      ∀ d, (∃ t ∈ ts, t.descriptor = d ∧ ∃ i, ReaderFor F' t.name i ∧ F'.byDesc.lookup d = some (some i)) ∨
        ((∀ t ∈ ts, t.descriptor ≠ d) ∧ F'.byDesc.lookup d = F.byDesc.lookup d)) := by
  induction ts generalizing F K before with
  | nil => exact Run.pure ⟨trivial, h, fun _ _ x => x, fun _ _ x => x, fun d => .inr ⟨by simp, rfl⟩⟩
  | cons t ts ih =>
    rcases run_one lf h t (ht t List.mem_cons_self) with ⟨_, F', h1, h2, h3, h4, h5, i, h6, h7⟩ | ⟨h1, m, F', h2⟩
    · rcases ih (fun t hm => ht t (List.mem_cons_of_mem _ hm)) h3 with ⟨_, F2, g1, g2, g3, g4, g5, g6⟩ | ⟨g1, m, F2, g2⟩
      · left
        refine ⟨(), F2, ?_, ⟨h2, g2⟩, by simpa using g3, fun i o x => g4 i o (h4 i o x), fun k i x => g5 k i (h5 k i x), ?_⟩
        · rw [processAll, FProg.bind_def, h1]; exact g1
        · intro d
          rcases g6 d with ⟨t', hm, e, j, hj, hl⟩ | ⟨hno, hl⟩
          · exact .inl ⟨t', List.mem_cons_of_mem _ hm, e, j, hj, hl⟩
          · rw [h7] at hl
            by_cases e : d = t.descriptor
            · rw [if_pos e] at hl
              exact .inl ⟨t, List.mem_cons_self, e.symm, i, g5 _ _ h6, hl⟩
            · rw [if_neg e] at hl
              refine .inr ⟨?_, hl⟩
              intro t' hm
              rcases List.mem_cons.mp hm with rfl | hm
              · exact fun e' => e e'.symm
              · exact hno t' hm
      · right
        refine ⟨fun hs => g1 hs.2, m, F2, ?_⟩
        rw [processAll, FProg.bind_def, h1]; exact g2
    · right
      exact ⟨fun hs => h1 hs.1, m, F', by rw [processAll, FProg.bind_def, h2]⟩

/-- Any factory without null entries satisfies the invariant. -/
theorem sane_inv {F : Factory} (h : Sane F) : Inv F (names F) [] (names F) [] := by
  refine ⟨h, fun k i o hk _ => .inr (.inr (mem_names_of hk)), fun k hk => ?_, fun k i hk => .inl (mem_names_of hk), by simp⟩
  unfold names at hk
  rw [List.mem_map] at hk
  obtain ⟨⟨k', e⟩, hm, rfl⟩ := hk
  rw [List.mem_filter] at hm
  have : F.byType.lookup k' ≠ none := by
    intro hn
    exact (lookup_none_iff _ _).mp hn _ hm.1 rfl
  cases hl : F.byType.lookup k' with
  | none => exact absurd hl this
  | some e' =>
    obtain ⟨i, o, rfl, -, -⟩ := h k' e' hl
    exact ⟨i, hl⟩

theorem sane_empty : Sane Factory.empty := by intro k e h; simp [Factory.empty] at h

theorem sane_install {F : Factory} (h : Sane F) (n : Nat) (t : Str) : Sane (F.installCustom n t) := by
  intro k e hk
  simp only [Factory.installCustom, lookup_assign] at hk
  by_cases e' : k = t
  · rw [if_pos e'] at hk
    cases hk
    exact ⟨F.objs.length, ⟨.custom n, t, []⟩, rfl, by simp [Factory.installCustom], e'.symm⟩
  · rw [if_neg e'] at hk
    obtain ⟨i, o, h1, h2, h3⟩ := h k e hk
    exact ⟨i, o, h1, getElem?_snoc h2, h3⟩

end Corda
