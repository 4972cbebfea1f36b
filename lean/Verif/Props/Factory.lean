import Verif.Lemmas.Factory
import Verif.Props.SchemaTypes

/-
C43-C46: building readers for the types of a schema.
-/

namespace Corda.Props
open Corda Spec FProg

/-- Fields made by `Field::make` are plain unless they are `*` without requirements. -/
theorem made_plain (name type : Str) (requires : List Str) (dflt label : Str) (mand mult : Bool) (f : Field)
    (h : Field.make name type requires dflt label mand mult = .ok f) (hs : type ≠ "*".toList ∨ requires ≠ []) :
    PlainField f := by
  have hcont : ∀ k ∈ readable, isContainer k = .ok false := by decide +kernel
  unfold Field.make at h
  split at h
  · simp only [Res.pure_eq, Res.ok.injEq] at h
    subst h
    exact ⟨by simp, ⟨type, rfl⟩, fun h => absurd rfl h⟩
  · rename_i hp
    have hnr : type ∉ readable := fun hr => hp (readable_primitive _ hr)
    rw [Res.bind_eq, Res.bind_eq_ok] at h
    obtain ⟨arr, -, h⟩ := h
    split at h
    · rw [Res.bind_eq, Res.bind_eq_ok] at h
      obtain ⟨sub, -, h⟩ := h
      simp only [Res.pure_eq, Res.ok.injEq] at h
      subst h
      exact ⟨by simp, ⟨type, rfl⟩, fun _ t ht => by simp [fieldTypeName] at ht; subst ht; exact hnr⟩
    · split at h
      · rename_i hstar
        cases hr : requires with
        | nil => exact absurd hr (hs.resolve_left (fun h => h hstar))
        | cons r rs =>
          rw [hr] at h
          simp only [Res.bind_eq, Res.bind_eq_ok] at h
          obtain ⟨c, hc, h⟩ := h
          split at h
          · rename_i hct
            rw [Res.bind_eq_ok] at h
            obtain ⟨sub, -, h⟩ := h
            simp only [Res.pure_eq, Res.ok.injEq] at h
            subst h
            refine ⟨by simp, ⟨r, rfl⟩, fun _ t ht => ?_⟩
            simp [fieldTypeName] at ht
            subst ht
            intro hm
            rw [hcont _ hm] at hc
            simp only [Res.ok.injEq] at hc
            rw [← hc] at hct
            simp at hct
          · simp at h
      · rw [Res.bind_eq, Res.bind_eq_ok] at h
        obtain ⟨sub, -, h⟩ := h
        simp only [Res.pure_eq, Res.ok.injEq] at h
        subst h
        exact ⟨by simp, ⟨type, rfl⟩, fun _ t ht => by simp [fieldTypeName] at ht; subst ht; exact hnr⟩

/-! ### C43 -/

/-- **C43.** Take any factory without null entries and any schema in which every type is known to the factory or comes
after the types it needs, leaf types being primitive types with a reader or known.  Processing it succeeds.  Afterwards
each of its types is found by name, as a serialiser of that type; each of its descriptors is found and gives the
serialiser that its type's name gives (of a type with that descriptor, if several have the same); and what was known
before still is, by the same serialisers. -/
theorem C43_readers_exist (leftFirst : Bool) (s : Schema) (F : Factory) (hF : Sane F)
    (hp : ∀ t ∈ s.types.flatten, PlainType t) (ho : Ordered (names F) s.types.flatten) :
    ∃ F', process leftFirst s F = (.ok (), F') ∧ Sane F'
      ∧ (∀ t ∈ s.types.flatten, ∃ i o, F'.findType t.name = some i ∧ F'.lock i = some o ∧ o.type = t.name)
      ∧ (∀ t ∈ s.types.flatten, ∃ i, F'.findDesc t.descriptor = some i ∧
          ∃ t' ∈ s.types.flatten, t'.descriptor = t.descriptor ∧ F'.findType t'.name = some i)
      ∧ (∀ k i, F.findType k = some i → F'.findType k = some i ∧ F'.objs[i]? = F.objs[i]?) := by
  rcases run_all leftFirst s.types.flatten hp (sane_inv hF) with ⟨_, F', h1, h2, h3, h4, h5, h6⟩ | ⟨h1, -⟩
  · have found : ∀ t ∈ s.types.flatten, ∃ i, ReaderFor F' t.name i := by
      intro t ht
      exact h3.known _ (List.mem_append_left _ (List.mem_reverse.mpr (List.mem_map_of_mem ht)))
    have ft : ∀ {G : Factory} {k i}, ReaderFor G k i → G.findType k = some i := by
      intro G k i h
      have : G.byType.lookup k = some (some i) := h
      simp [Factory.findType, this]
    refine ⟨F', h1, h3.clean, ?_, ?_, ?_⟩
    · intro t ht
      obtain ⟨i, hi⟩ := found t ht
      obtain ⟨j, o, hj, ho, hty⟩ := h3.clean _ _ hi
      cases hj
      exact ⟨i, o, ft hi, hi.lock ho, hty⟩
    · intro t ht
      rcases h6 t.descriptor with ⟨t', hm, hd, i, hi, hl⟩ | ⟨hno, -⟩
      · exact ⟨i, by simp [Factory.findDesc, hl], t', hm, hd, ft hi⟩
      · exact absurd rfl (hno t ht)
    · intro k i hk
      have hr : ReaderFor F k i := by
        unfold Factory.findType at hk
        unfold ReaderFor
        cases hl : F.byType.lookup k with
        | none => simp [hl] at hk
        | some e => simp [hl] at hk; rw [hk]
      obtain ⟨j, o, hj, ho, hty⟩ := hF _ _ hr
      cases hj
      exact ⟨ft (h5 _ _ hr), by rw [ho]; exact h4 _ _ ho⟩
  · exact absurd ho h1

/-- The readers made for the types that were not known before have the structure the types prescribe. -/
theorem C43_structure (leftFirst : Bool) (s : Schema) (F F' : Factory) (hF : Sane F)
    (hp : ∀ t ∈ s.types.flatten, PlainType t) (h : process leftFirst s F = (.ok (), F'))
    (hu : ∀ t ∈ s.types.flatten, ∀ t' ∈ s.types.flatten, t.name = t'.name → t = t') :
    ∀ t ∈ s.types.flatten, t.name ∉ names F → ∃ i o, F'.findType t.name = some i ∧ F'.lock i = some o ∧ Built F' t o := by
  intro t ht hn
  rcases run_all leftFirst s.types.flatten hp (sane_inv hF) with ⟨_, F2, h1, h2, h3, h4, h5, h6⟩ | ⟨-, m, F2, h1⟩
  · have : F2 = F' := by
      have := h1.symm.trans h
      simpa using this
    subst this
    obtain ⟨i, hi⟩ := h3.known t.name (List.mem_append_left _ (List.mem_reverse.mpr (List.mem_map_of_mem ht)))
    obtain ⟨j, o, hj, ho, hty⟩ := h3.clean _ _ hi
    cases hj
    refine ⟨i, o, ?_, hi.lock ho, ?_⟩
    · have : F2.byType.lookup t.name = some (some i) := hi
      simp [Factory.findType, this]
    · rcases h3.entry _ _ _ hi ho with ⟨p, hp', -⟩ | ⟨t', ht', hn', hb⟩ | hc
      · exact absurd (readable_of_ok hp') (hp t ht).1
      · have : t' = t := hu t' (by simpa using ht') t ht hn'
        rw [← this]; exact hb
      · exact absurd hc hn
  · have := h1.symm.trans h
    simp at this

/-! An example: a class with a list of another class. -/

def intField (n : Str) : Field := ⟨.primitive, n, "int".toList, [], [], [], true, false, []⟩
def inT : TypeNotation := .comp ⟨"In".toList, [], [], "fpIn".toList, [intField "x".toList]⟩
def listT : TypeNotation := .restr ⟨"java.util.List<In>".toList, [], [], "fpL".toList, .list "In".toList⟩
def outT : TypeNotation := .comp ⟨"Out".toList, [], [], "fpOut".toList,
  [⟨.restricted, "l".toList, "*".toList, ["java.util.List<In>".toList], [], [], true, false, ["In".toList]⟩,
   ⟨.composite, "i".toList, "In".toList, [], [], [], true, false, []⟩,
   ⟨.composite, "again".toList, "Out".toList, [], [], [], true, false, []⟩]⟩
def exampleSchema : Schema := Schema.make [[inT], [listT], [outT]]

example : Ordered (names Factory.empty) exampleSchema.types.flatten := by decide +kernel
example : (process true exampleSchema Factory.empty).1 = .ok ()
    ∧ (process true exampleSchema Factory.empty).2.findDesc "fpOut".toList = some 3
    ∧ (process true exampleSchema Factory.empty).2.objs[3]?.map Ser.subs = some [2, 0, 3] := by decide +kernel

/-! ### C44 -/

/-- **C44, what does hold.** With a factory without null entries, and a schema whose fields are as `Field::make` makes
them (not `*` without requirements) and whose type names are not those of primitive types: processing never runs into
undefined behaviour, succeeds exactly if every type finds what it needs among known and earlier types, and throws
exactly if some type does not. -/
theorem C44_missing_reported_partial (leftFirst : Bool) (s : Schema) (F : Factory) (hF : Sane F)
    (hp : ∀ t ∈ s.types.flatten, PlainType t) :
    ¬ (process leftFirst s F).1.IsUB
      ∧ ((process leftFirst s F).1 = .ok () ↔ Ordered (names F) s.types.flatten)
      ∧ ((process leftFirst s F).1.Throws ↔ ¬ Ordered (names F) s.types.flatten) := by
  rcases run_all leftFirst s.types.flatten hp (sane_inv hF) with ⟨_, F', h1, h2, -⟩ | ⟨h1, m, F', h2⟩
  · have : process leftFirst s F = (.ok (), F') := h1
    rw [this]
    simp [Res.IsUB, Res.Throws, h2]
  · have : process leftFirst s F = (.throw m, F') := h2
    rw [this]
    simp [Res.IsUB, Res.Throws, h1]

/-- A schema with one class that has a field of a class that is missing. -/
def missingT : TypeNotation := .comp ⟨"Needs".toList, [], [], "fpN".toList,
  [⟨.composite, "i".toList, "In".toList, [], [], [], true, false, []⟩]⟩
/-- A field `*` that names no requirement. -/
def anyT : TypeNotation := .comp ⟨"Any".toList, [], [], "fpA".toList,
  [⟨.custom, "a".toList, "*".toList, [], [], [], true, false, []⟩]⟩

/-- **C44 is violated.** A missing type is reported, but the failed lookup leaves a null entry behind; a later schema
that does define the type then runs into an assertion (undefined behaviour if assertions are off), although a new
factory processes that schema without problems.  And a field of type `*` without requirements is not reported: the
front of an empty list is read. -/
theorem C44_missing_reported_violated :
    (let F := (process true (Schema.make [[missingT]]) Factory.empty).2
     (process true (Schema.make [[missingT]]) Factory.empty).1.Throws
      ∧ (process true (Schema.make [[inT]]) F).1.IsUB
      ∧ (process true (Schema.make [[inT]]) Factory.empty).1 = .ok ())
    ∧ (process true (Schema.make [[anyT]]) Factory.empty).1.IsUB := by
  decide +kernel

/-! ### C45 -/

/-- Processing one schema after the other with the same factory. -/
def processMany (leftFirst : Bool) : List Schema → FProg Unit
  | [] => pure ()
  | s :: ss => do
    process leftFirst s
    processMany leftFirst ss

/-- Types of the same name are the same. -/
def SameNames (ts : List TypeNotation) : Prop := ∀ t ∈ ts, ∀ t' ∈ ts, t.name = t'.name → t = t'

theorem served_mono {K K' : List Str} {t : TypeNotation} (hs : served K t) (h : ∀ k ∈ K, k ∈ K') : served K' t := by
  cases t with
  | comp c =>
    intro f hf
    have := hs f hf
    unfold fieldServed at this ⊢
    cases hk : f.kind <;> simp only [hk] at this ⊢
    · exact this.imp id (h _)
    all_goals
      obtain ⟨t, ht, hc⟩ := this
      exact ⟨t, ht, hc.imp id (h _)⟩
  | restr r =>
    unfold served at hs ⊢
    dsimp only at hs ⊢
    cases hk : r.kind <;> simp only [hk] at hs ⊢
    · exact hs.imp id (h _)
    · exact ⟨hs.1.imp id (h _), hs.2.imp id (h _)⟩
    · exact hs.imp id (h _)

theorem Ordered.mono {K K' : List Str} (h : ∀ k ∈ K, k ∈ K') (ts : List TypeNotation) (ho : Ordered K ts) :
    Ordered K' ts := by
  induction ts generalizing K K' with
  | nil => trivial
  | cons t ts ih =>
    refine ⟨ho.1.imp (h _) (fun hs => served_mono hs h), ih (fun k hk => ?_) ho.2⟩
    rcases List.mem_cons.mp hk with rfl | hk
    · exact List.mem_cons_self
    · exact List.mem_cons_of_mem _ (h k hk)

/-- After any successful sequence the invariant holds with all the types. -/
theorem many_inv (leftFirst : Bool) (ss : List Schema) (hp : ∀ s ∈ ss, ∀ t ∈ s.types.flatten, PlainType t) {F F' : Factory}
    {K : List Str} {before : List TypeNotation} {cs : List Str} (h : Inv F K before cs [])
    (hs : processMany leftFirst ss F = (.ok (), F')) :
    ∃ K', Inv F' K' ((ss.map fun s => s.types.flatten).reverse.flatMap List.reverse ++ before) cs [] ∧
      (∀ k ∈ K, k ∈ K') ∧ (∀ s ∈ ss, ∀ t ∈ s.types.flatten, t.name ∈ K') := by
  induction ss generalizing F K before with
  | nil =>
    cases hs
    exact ⟨K, h, fun _ x => x, by simp⟩
  | cons s ss ih =>
    rw [processMany, FProg.bind_def] at hs
    rcases run_all leftFirst s.types.flatten (hp s List.mem_cons_self) h with ⟨_, F1, h1, h2, h3, -⟩ | ⟨-, m, F1, h1⟩
    · have h1 : process leftFirst s F = (.ok (), F1) := h1
      rw [h1] at hs
      obtain ⟨K', g1, g2, g3⟩ := ih (fun s hm => hp s (List.mem_cons_of_mem _ hm)) h3 hs
      refine ⟨K', by simpa [List.append_assoc] using g1, fun k hk => g2 k (List.mem_append_right _ hk), ?_⟩
      intro s' hs' t ht
      rcases List.mem_cons.mp hs' with rfl | hs'
      · exact g2 _ (List.mem_append_left _ (List.mem_reverse.mpr (List.mem_map_of_mem ht)))
      · exact g3 s' hs' t ht
    · have h1 : process leftFirst s F = (.throw m, F1) := h1
      rw [h1] at hs
      simp at hs

/-- A factory with the invariant is ready for values of its types. -/
theorem Inv.ready {F : Factory} {K : List Str} {ts : List TypeNotation} {cs : List Str} (h : Inv F K ts cs [])
    (hn : ∀ t ∈ ts, t.name ∉ readable ∧ t.name ∉ cs) (hc : ∀ k ∈ readable, k ∉ cs) (hu : SameNames ts)
    (us : List TypeNotation) (hus : ∀ t ∈ us, t ∈ ts ∧ t.name ∈ K) : Ready F us := by
  refine ⟨fun t ht => ?_, fun k p i hp hi => ?_⟩
  · obtain ⟨hm, hk⟩ := hus t ht
    obtain ⟨i, hi⟩ := h.known _ hk
    obtain ⟨j, o, hj, ho, -⟩ := h.clean _ _ hi
    cases hj
    refine ⟨i, o, hi, ho, ?_⟩
    rcases h.entry _ _ _ hi ho with ⟨p, hp, -⟩ | ⟨t', ht', hn', hb⟩ | hx
    · exact absurd (readable_of_ok hp) (hn t hm).1
    · rw [← hu t' ht' t hm hn']; exact hb
    · exact absurd hx (hn t hm).2
  · obtain ⟨j, o, hj, ho, -⟩ := h.clean _ _ hi
    cases hj
    refine ⟨o, ho, ?_⟩
    have hr := readable_of_ok hp
    rcases h.entry _ _ _ hi ho with ⟨p', hp', hk⟩ | ⟨t', ht', hn', hb⟩ | hx
    · rw [hp] at hp'
      cases hp'
      exact hk
    · exact absurd (hn' ▸ hr) (hn t' ht').1
    · exact absurd hx (hc k hr)

/-- **C45, what does hold.** If a new factory has processed any sequence of schemas and then processes another one, and
all types of the same name in all these schemas are the same, then it has, for every type of the last schema, a reader
of the structure the type prescribes, as a fresh factory has: the reader found under a type's name has that type's
shape, and its parts are the readers found under the names of the parts. -/
theorem C45_reuse_partial (leftFirst : Bool) (ss : List Schema) (s : Schema)
    (hp : ∀ u ∈ ss ++ [s], ∀ t ∈ u.types.flatten, PlainType t)
    (hu : SameNames ((ss ++ [s]).flatMap fun u => u.types.flatten))
    (ho : Ordered [] s.types.flatten) (F : Factory) (hF : processMany leftFirst ss Factory.empty = (.ok (), F)) :
    ∃ F' G', process leftFirst s F = (.ok (), F') ∧ process leftFirst s Factory.empty = (.ok (), G')
      ∧ Ready F' s.types.flatten ∧ Ready G' s.types.flatten := by
  have h0 : Inv Factory.empty [] [] [] [] := sane_inv sane_empty
  have fresh : ∃ G', process leftFirst s Factory.empty = (.ok (), G') ∧ Ready G' s.types.flatten := by
    rcases run_all leftFirst s.types.flatten (hp s (by simp)) h0 with ⟨_, G', h1, h2, h3, -⟩ | ⟨h1, -⟩
    · refine ⟨G', h1, Inv.ready h3 ?_ (by simp) ?_ _ ?_⟩
      · intro t ht
        exact ⟨(hp s (by simp) t (by simpa using ht)).1, by simp⟩
      · intro t ht t' ht'
        exact hu t (by simp only [List.mem_flatMap]; exact ⟨s, by simp, by simpa using ht⟩) t'
          (by simp only [List.mem_flatMap]; exact ⟨s, by simp, by simpa using ht'⟩)
      · intro t ht
        exact ⟨by simpa using ht, List.mem_append_left _ (List.mem_reverse.mpr (List.mem_map_of_mem ht))⟩
    · exact absurd ho h1
  obtain ⟨G', hG, hGr⟩ := fresh
  obtain ⟨K', g1, -, g3⟩ := many_inv leftFirst ss (fun u hm => hp u (by simp [hm])) h0 hF
  rcases run_all leftFirst s.types.flatten (hp s (by simp)) g1 with ⟨_, F', h1, h2, h3, -⟩ | ⟨h1, -⟩
  · have hin : ∀ t, t ∈ s.types.flatten.reverse ++ ((ss.map fun s => s.types.flatten).reverse.flatMap List.reverse ++ []) →
        ∃ u ∈ ss ++ [s], t ∈ u.types.flatten := by
      intro t ht
      rw [List.mem_append] at ht
      rcases ht with ht | ht
      · exact ⟨s, by simp, by simpa using ht⟩
      · simp only [List.append_nil, List.mem_flatMap, List.mem_reverse, List.mem_map] at ht
        obtain ⟨l, ⟨u, hu, rfl⟩, hm⟩ := ht
        exact ⟨u, by simp [hu], hm⟩
    refine ⟨F', G', h1, hG, Inv.ready h3 ?_ (by simp) ?_ _ ?_, hGr⟩
    · intro t ht
      obtain ⟨u, hu, hm⟩ := hin t ht
      exact ⟨(hp u hu t hm).1, by simp⟩
    · intro t ht t' ht'
      obtain ⟨u, hu1, hm⟩ := hin t ht
      obtain ⟨u', hu', hm'⟩ := hin t' ht'
      exact hu t (List.mem_flatMap.mpr ⟨u, hu1, hm⟩) t' (List.mem_flatMap.mpr ⟨u', hu', hm'⟩)
    · intro t ht
      exact ⟨List.mem_append_left _ (List.mem_reverse.mpr ht),
        List.mem_append_left _ (List.mem_reverse.mpr (List.mem_map_of_mem ht))⟩
  · exact absurd (Ordered.mono (by simp) _ ho) h1

/-- The class `In` of another version, with one more field. -/
def inT2 : TypeNotation := .comp ⟨"In".toList, [], [], "fpIn2".toList, [intField "x".toList, intField "y".toList]⟩

example : SameNames [inT, listT, outT] ∧ ¬ SameNames [inT, inT2] := by unfold SameNames; decide +kernel

/-- **C45 is violated.** After a schema with a class `In` of one field, processing a schema whose `In` has two fields
keeps the reader for one field. -/
theorem C45_reuse_violated :
    let F := (process true (Schema.make [[inT]]) Factory.empty).2
    let subs (G : Factory) := (G.findDesc "fpIn2".toList).bind fun i => (G.lock i).map fun o => o.subs.length
    (process true (Schema.make [[inT2]]) F).1 = .ok ()
      ∧ subs (process true (Schema.make [[inT2]]) F).2 = some 1
      ∧ subs (process true (Schema.make [[inT2]]) Factory.empty).2 = some 2 := by
  decide +kernel

/-! ### C46 -/

/-- **C46, what does hold.** After installing a custom serialiser for a type name that the factory did not know and that
is not a primitive type, process any schema with plain types whose composites were not known either and have distinct
names.  Then in every composite of the schema, each field of the custom type uses the custom serialiser; likewise the
lists, arrays and maps of it. -/
theorem C46_custom_used_partial (leftFirst : Bool) (s : Schema) (F F' : Factory) (n : Nat) (name : Str) (hF : Sane F)
    (hp : ∀ t ∈ s.types.flatten, PlainType t) (hu : SameNames s.types.flatten)
    (h : process leftFirst s (F.installCustom n name) = (.ok (), F')) (t : TypeNotation) (ht : t ∈ s.types.flatten)
    (hk : t.name ∉ names (F.installCustom n name)) :
    ∃ i o, F'.findType t.name = some i ∧ F'.lock i = some o ∧
      ∃ j, F'.findType name = some j ∧ (F'.lock j).map Ser.kind = some (.custom n) ∧
      (∀ c, t = .comp c → o.subs.length = c.fields.length ∧
        ∀ f k, (f, k) ∈ c.fields.zip o.subs → f.resolvedType = .ok name → k = j) ∧
      (∀ r l, t = .restr r → r.kind = .list l ∨ r.kind = .array l → l = name → o.subs = [j]) ∧
      (∀ r a b, t = .restr r → r.kind = .map a b → (a = name → o.subs[0]? = some j) ∧ (b = name → o.subs[1]? = some j)) := by
  have hS := sane_install hF n name
  obtain ⟨i, o, h1, h2, h3⟩ := C43_structure leftFirst s _ F' hS hp h hu t ht hk
  have hr0 : ReaderFor (F.installCustom n name) name F.objs.length := by
    simp [ReaderFor, Factory.installCustom, lookup_assign]
  rcases run_all leftFirst s.types.flatten hp (sane_inv hS) with ⟨_, F2, g1, -, -, g4, g5, -⟩ | ⟨-, m, F2, g1⟩
  · have : F2 = F' := by
      have := g1.symm.trans h
      simpa using this
    subst this
    have hr := g5 _ _ hr0
    have ho : F2.objs[F.objs.length]? = some ⟨.custom n, name, []⟩ := g4 _ _ (by simp [Factory.installCustom])
    have same : ∀ k, ReaderFor F2 name k → k = F.objs.length := by
      intro k hk
      have := hk.symm.trans hr
      simpa using this
    refine ⟨i, o, h1, h2, F.objs.length, ?_, by rw [hr.lock ho]; rfl, ?_, ?_, ?_⟩
    · have : F2.byType.lookup name = some (some F.objs.length) := hr
      simp [Factory.findType, this]
    · rintro c rfl
      obtain ⟨-, k2, k3⟩ := h3
      refine ⟨k2, fun f k hm hf => ?_⟩
      obtain ⟨t, ht, hj⟩ := k3 f k hm
      rw [hf] at ht
      cases ht
      exact same k hj
    · rintro r l rfl hkind rfl
      unfold Built at h3
      rcases hkind with hk | hk <;> simp only [hk] at h3
      · obtain ⟨-, j, e, hj⟩ := h3
        rw [e, same j hj]
      · obtain ⟨-, j, e, hj⟩ := h3
        rw [e, same j hj]
    · rintro r a b rfl hk
      unfold Built at h3
      simp only [hk] at h3
      obtain ⟨-, j, j', e, hj, hj'⟩ := h3
      constructor
      · rintro rfl
        rw [e, same j hj]; rfl
      · rintro rfl
        rw [e, same j' hj']; rfl
  · have := g1.symm.trans h
    simp at this

/-- An example: a class with a field whose class has a custom serialiser. -/
example : (process true (Schema.make [[missingT]]) (Factory.empty.installCustom 7 "In".toList)).1 = .ok ()
    ∧ (process true (Schema.make [[missingT]]) (Factory.empty.installCustom 7 "In".toList)).2.objs
      = [⟨.custom 7, "In".toList, []⟩, ⟨.composite, "Needs".toList, [0]⟩] := by decide +kernel

/-- **C46 is violated.** If the composite was processed before the custom serialiser was installed, its field keeps the
old reader (which may by then be destroyed).  And a custom serialiser for a primitive type, installed after a schema
that uses it, destroys the reader that the composites processed before use. -/
theorem C46_custom_used_violated :
    (let F := ((process true (Schema.make [[inT], [missingT]]) Factory.empty).2.installCustom 7 "In".toList)
     let F' := (process true (Schema.make [[missingT]]) F).2
     (process true (Schema.make [[missingT]]) F).1 = .ok ()
      ∧ F'.findType "In".toList = some 3
      ∧ ((F'.findType "Needs".toList).bind F'.lock).map Ser.subs = some [0])
    ∧ (let F := ((process true (Schema.make [[inT]]) Factory.empty).2.installCustom 7 "int".toList)
       let F' := (process true (Schema.make [[inT]]) F).2
       (process true (Schema.make [[inT]]) F).1 = .ok ()
        ∧ ((F'.findType "In".toList).bind F'.lock).map (fun o => o.subs.map F'.lock) = some [none]) := by
  decide +kernel

#print axioms C43_readers_exist
#print axioms C43_structure
#print axioms C44_missing_reported_partial
#print axioms C44_missing_reported_violated
#print axioms C45_reuse_partial
#print axioms C45_reuse_violated
#print axioms C46_custom_used_partial
#print axioms C46_custom_used_violated

end Corda.Props
