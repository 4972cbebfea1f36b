import Verif.Spec.Choices
import Verif.Props.Readers

/-
C116: what is shown of maps when arguments are evaluated from right to left.
-/

namespace Corda.Props
open Corda Prog Spec FProg

theorem exchangedAll_length (vs : List PVal) : (exchangedAll vs).length = vs.length := by
  induction vs with
  | nil => rw [exchangedAll]
  | cons v vs ih => rw [exchangedAll]; simp [ih]

theorem exchangedEntries_length (es : List PEntry) : (exchangedEntries es).length = es.length := by
  induction es with
  | nil => rw [exchangedEntries]
  | cons e es ih => cases e; rw [exchangedEntries]; simp [ih]

private theorem each_turned {p : Prog Val} {es : List PVal} (h : ∀ e ∈ es, Shows p (valTree (exchanged e)) (shown e)) :
    ∃ vals, Each (Reads p) (valTrees (exchangedAll es)) vals ∧ vals.map Val.dump = shownAll es := by
  induction es with
  | nil => exact ⟨[], by rw [exchangedAll, valTrees]; exact .nil, by rw [shownAll]; rfl⟩
  | cons e es ih =>
    obtain ⟨vals, h1, h2⟩ := ih (fun e he => h e (List.mem_cons_of_mem _ he))
    obtain ⟨v, h3, h4⟩ := h e List.mem_cons_self
    exact ⟨v :: vals, by rw [exchangedAll, valTrees]; exact .cons h3 h1, by rw [shownAll, List.map_cons, h4, h2]⟩

private theorem each_turned_entries {p q : Prog Val} {es : List PEntry} (h : ∀ e ∈ es, Shows p (valTree (exchanged e.key)) (shown e.key))
    (h' : ∀ e ∈ es, Shows q (valTree (exchanged e.value)) (shown e.value)) :
    ∃ vals, Each (fun e w => ∃ a b, Reads q (valTree e.key) a ∧ Reads p (valTree e.value) b ∧ w = .valuePair b a)
        (exchangedEntries es) vals ∧
      vals.map Val.dump = shownEntries es := by
  induction es with
  | nil => exact ⟨[], by rw [exchangedEntries]; exact .nil, by rw [shownEntries]; rfl⟩
  | cons e es ih =>
    obtain ⟨vals, h1, h2⟩ := ih (fun e he => h e (List.mem_cons_of_mem _ he)) (fun e he => h' e (List.mem_cons_of_mem _ he))
    obtain ⟨a, h3, h4⟩ := h e List.mem_cons_self
    obtain ⟨b, h5, h6⟩ := h' e List.mem_cons_self
    cases e with
    | mk k v =>
      refine ⟨.valuePair a b :: vals, by rw [exchangedEntries]; exact .cons ⟨b, a, h5, h3, rfl⟩ h1, ?_⟩
      rw [shownEntries, List.map_cons, h2, Val.dump, h4, h6]; rfl

private theorem each_turned_fields {F : Factory} {rec : Nat → Option Str → Prog Val} {fs : List (Field × Nat)} {vs : List PVal}
    (hl : fs.length = vs.length)
    (h : ∀ f j v, ((f, j), v) ∈ fs.zip vs → (∃ o, F.lock j = some o) ∧
      Shows (rec j (some f.name)) (valTree (exchanged v)) (labelled (some f.name) (shown v))) :
    ∃ vals, Each (fun (x : (Field × Nat) × Node) w => (∃ o, F.lock x.1.2 = some o) ∧
        Reads (rec x.1.2 (some x.1.1.name)) x.2 w) (fs.zip (valTrees (exchangedAll vs))) vals ∧
      vals.map Val.dump = shownNamed (fs.map (fun x => x.1.name)) vs := by
  induction fs generalizing vs with
  | nil =>
    cases vs with
    | cons => simp at hl
    | nil => exact ⟨[], by rw [exchangedAll, valTrees]; exact .nil, by rw [List.map_nil, List.map_nil, shownNamed]; intros; contradiction⟩
  | cons f fs ih =>
    cases vs with
    | nil => simp at hl
    | cons v vs =>
      obtain ⟨f, j⟩ := f
      obtain ⟨vals, h1, h2⟩ := ih (by simpa using hl) (fun f j v hm => h f j v (by
        rw [List.zip_cons_cons]; exact List.mem_cons_of_mem _ hm))
      obtain ⟨h3, w, h4, h5⟩ := h f j v (by rw [List.zip_cons_cons]; exact List.mem_cons_self)
      refine ⟨w :: vals, by rw [exchangedAll, valTrees, List.zip_cons_cons]; exact .cons ⟨h3, h4⟩ h1, ?_⟩
      rw [List.map_cons, List.map_cons, shownNamed, h2, h5]
      rfl

private theorem mem_turned {v : PVal} {vs : List PVal} (h : v ∈ vs) : valTree (exchanged v) ∈ valTrees (exchangedAll vs) := by
  induction vs with
  | nil => simp at h
  | cons w vs ih =>
    rw [exchangedAll, valTrees]
    rcases List.mem_cons.mp h with rfl | h
    · exact List.mem_cons_self
    · exact List.mem_cons_of_mem _ (ih h)

private theorem mem_turned_entries {e : PEntry} {es : List PEntry} (h : e ∈ es) :
    valTree (exchanged e.value) ∈ pairTrees (exchangedEntries es) ∧ valTree (exchanged e.key) ∈ pairTrees (exchangedEntries es) := by
  induction es with
  | nil => simp at h
  | cons w es ih =>
    cases w with
    | mk a b =>
      rw [exchangedEntries, pairTrees]
      rcases List.mem_cons.mp h with rfl | h
      · simp [PEntry.key, PEntry.value]
      · exact ⟨List.mem_cons_of_mem _ (List.mem_cons_of_mem _ (ih h).1), List.mem_cons_of_mem _ (List.mem_cons_of_mem _ (ih h).2)⟩

private theorem reads_mapDump_turned {F : Factory} {s : Schema} {rec : Nat → Option Str → Prog Val} {i j : Nat} {o o' : Ser} {d : Str}
    {t : TypeNotation} {es : List PEntry} {vals : List Val} (hd : s.fromDescriptor d = .ok t) (ho : F.lock i = some o)
    (ho' : F.lock j = some o')
    (h : Each (fun e w => ∃ a b, Reads (rec j none) (valTree e.key) a ∧ Reads (rec i none) (valTree e.value) b ∧
      w = .valuePair b a) es vals) (c : Cursor) (hc : c.cur = some (described d (.mk .map (pairTrees es)))) :
    mapDump false F s rec [i, j] c = (.ok vals, c) := by
  unfold mapDump
  rw [bind_of_ok (attestDescribed_ok hc)]
  have hu : useReader F rec i = rec i none := by simp [useReader, ho]
  have hu' : useReader F rec j = rec j none := by simp [useReader, ho']
  obtain ⟨c', h1, h2⟩ := times_reads_swapped h _ (at_start (pairTrees es) (([Node.mk (.symbol d) []], .map, []) ::
    (c.prev, .described, c.rest) :: c.up))
  refine enter_described hc (c' := inside2 c d (.mk .map (pairTrees es))) ?_ (keeps_inside2 _ _ _)
  rw [bind_of_ok (inside_readString c d _), bind_of_ok (lookup_of_desc hd _)]
  unfold autoMapEnter
  refine scope_back (c1 := (⟨[], none, pairTrees es, ([Node.mk (.symbol d) []], .map, []) ::
    (c.prev, .described, c.rest) :: c.up⟩ : Cursor).next.2) rfl rfl ?_ ((Cursor.next_keeps _).trans h2)
  have hn : (inside2 c d (.mk .map (pairTrees es))).getMap = 2 * es.length := pairTrees_length es
  simp only [hu, hu', hn, show (2 * es.length + 1) / 2 = es.length by omega]
  exact h1

/-- **From right to left, the reader of a type shows the values of that type that were written exchanged.** -/
theorem dump_shows_exchanged {cu : Customs} {F : Factory} {s : Schema} {ts : List TypeNotation} (hF : Ready F ts)
    (hd : ∀ t ∈ ts, s.fromDescriptor t.descriptor = .ok t)
    {t : Str} {v : PVal} (h : Typed ts t v) :
    ∀ i fuel name, ReaderFor F t i → (valTree (exchanged v)).height ≤ fuel →
      Shows (dump cu false F s fuel i name) (valTree (exchanged v)) (labelled name (shown v)) := by
  have prim : ∀ (k : Str) (p : PrimReader) (v : PVal), makePropertyReader k = .ok p →
      Reads (propertyText p) (valTree (exchanged v)) (shown v) →
      ∀ i fuel name, ReaderFor F k i → (valTree (exchanged v)).height ≤ fuel →
      Shows (dump cu false F s fuel i name) (valTree (exchanged v)) (labelled name (shown v)) := by
    intro k p v hk hr i fuel name hi hf
    cases fuel with
    | zero => have := height_pos (valTree (exchanged v)); omega
    | succ fuel =>
      obtain ⟨o, ho, hp⟩ := hF.prims k p i hk hi
      have : dump cu false F s (fuel + 1) i name = (do let t ← propertyText p; pure (text name t)) := by
        rw [dump_succ ho]; simp only [dumpWith, hp]
      rw [this]
      exact shows_prim hr name
  have find : ∀ t ∈ ts, ∀ i, ReaderFor F t.name i → ∃ o, F.objs[i]? = some o ∧ Built F t o := by
    intro t ht i hi
    obtain ⟨j, o, hj, ho, hb⟩ := hF.types t ht
    have : i = j := by
      have := hi.symm.trans hj; simpa using this
    subst this
    exact ⟨o, ho, hb⟩
  have obj : ∀ {t : Str} {v : PVal} {i : Nat}, Typed ts t v → ReaderFor F t i → ∃ o, F.lock i = some o := by
    intro t v i hv hi
    have pr : ∀ p, makePropertyReader t = .ok p → ∃ o, F.lock i = some o := by
      intro p hp
      obtain ⟨o, ho, -⟩ := hF.prims t p i hp hi
      exact ⟨o, hi.lock ho⟩
    have ty : ∀ u ∈ ts, u.name = t → ∃ o, F.lock i = some o := by
      intro u hu e
      subst e
      obtain ⟨o, ho, -⟩ := find u hu i hi
      exact ⟨o, hi.lock ho⟩
    cases hv with
    | int => exact pr .int (by decide +kernel)
    | long => exact pr .long (by decide +kernel)
    | double => exact pr .double (by decide +kernel)
    | bool => exact pr .boolean (by decide +kernel)
    | str => exact pr .string (by decide +kernel)
    | bin => exact pr .binary (by decide +kernel)
    | null c h => exact ty _ h rfl
    | enum r cs k o h => exact ty _ h rfl
    | list r l es h => exact ty _ h rfl
    | map r k v es h => exact ty _ h rfl
    | obj c vs h => exact ty _ h rfl
  induction h with
  | int n => exact prim _ .int _ (by decide +kernel) (by rw [exchanged]; exact reads_property (by simp))
  | long n => exact prim _ .long _ (by decide +kernel) (by rw [exchanged]; exact reads_property (by simp))
  | double n => exact prim _ .double _ (by decide +kernel) (by rw [exchanged]; exact reads_property (by simp))
  | bool n => exact prim _ .boolean _ (by decide +kernel) (by rw [exchanged]; exact reads_property (by simp))
  | str n => exact prim _ .string _ (by decide +kernel) (by rw [exchanged]; exact reads_property (by simp))
  | bin n => exact prim _ .binary _ (by decide +kernel) (by rw [exchanged]; exact reads_property (by simp))
  | null c hc =>
    intro i fuel name hi hf
    cases fuel with
    | zero => have := height_pos (valTree (exchanged .null)); omega
    | succ fuel =>
      obtain ⟨o, ho, hb⟩ := find _ hc i hi
      refine ⟨_, fun cur hcur => ?_, by rw [shown]; exact null_dump name⟩
      rw [dump_succ ho]
      simp only [dumpWith, hb.1]
      unfold autoNext
      have : isNull cur = (.ok true, cur) := by
        simp only [isNull, look, type_of_cur hcur, exchanged, valTree, Node.val, Atom.type, decide_true]
      rw [bind_of_ok this]
      rfl
  | enum r cs k o hr hk hm =>
    intro i fuel name hi hf
    cases fuel with
    | zero => have := height_pos (valTree (exchanged (.enum r.descriptor k o))); omega
    | succ fuel =>
      obtain ⟨ob, ho, hb⟩ := find _ hr i hi
      simp only [Built, hk] at hb
      refine ⟨text name k, fun cur hcur => ?_, by rw [shown]; exact text_dump name k⟩
      rw [dump_succ ho]
      simp only [dumpWith, hb]
      unfold autoNext
      rw [bind_of_ok (attestDescribed_ok (d := r.descriptor) (by rw [hcur, exchanged, valTree])),
        bind_of_ok (reads_enumValue r.descriptor k o cur (by rw [hcur, exchanged]))]
      rfl
  | list r l es hr hk he ih =>
    intro i fuel name hi hf
    cases fuel with
    | zero => have := height_pos (valTree (exchanged (.list r.descriptor es))); omega
    | succ fuel =>
      obtain ⟨ob, ho, hb⟩ := find _ hr i hi
      have hb : (ob.kind = .list ∨ ob.kind = .array) ∧ ∃ j, ob.subs = [j] ∧ ReaderFor F l j := by
        rcases hk with hk | hk <;> simp only [Built, hk] at hb
        · exact ⟨.inl hb.1, hb.2⟩
        · exact ⟨.inr hb.1, hb.2⟩
      obtain ⟨hkind, j, hj, hj'⟩ := hb
      rw [exchanged, valTree] at hf
      obtain ⟨vals, h1, h2⟩ := each_turned (p := dump cu false F s fuel j none) (es := es) (fun e hme => ih e hme j fuel none hj' (by
        have := height_described (d := r.descriptor) (a := .list) (mem_turned hme); omega))
      refine ⟨_, fun cur hcur => ?_, by rw [shown, ← h2]; exact pairList_dump name vals⟩
      rw [exchanged, valTree] at hcur
      have hl : listDump F s (dump cu false F s fuel) ob.subs cur = (.ok vals, cur) := by
        rw [hj]
        cases es with
        | nil =>
          rw [exchangedAll, valTrees] at hcur h1
          cases h1
          unfold listDump
          rw [bind_of_ok (attestDescribed_ok hcur)]
          refine enter_described hcur (c' := inside2 cur r.descriptor (.mk .list [])) ?_ (keeps_inside2 _ _ _)
          rw [bind_of_ok (inside_readString cur r.descriptor _), bind_of_ok (lookup_of_desc (d := r.descriptor) (hd _ hr) _)]
          rfl
        | cons e es =>
          obtain ⟨o', ho'⟩ := obj (he e List.mem_cons_self) hj'
          exact reads_listDump (hd _ hr) ho' h1 cur hcur
      rw [dump_succ ho]
      unfold dumpWith
      rcases hkind with hkind | hkind <;> simp only [hkind, autoNext] <;> rw [bind_of_ok hl] <;> rfl
  | map r k v es hr hk he he' ih ih' =>
    intro i fuel name hi hf
    cases fuel with
    | zero => have := height_pos (valTree (exchanged (.map r.descriptor es))); omega
    | succ fuel =>
      obtain ⟨ob, ho, hb⟩ := find _ hr i hi
      simp only [Built, hk] at hb
      obtain ⟨hkind, j, j', hj, hjk, hjv⟩ := hb
      rw [exchanged, valTree] at hf
      obtain ⟨vals, h1, h2⟩ := each_turned_entries (p := dump cu false F s fuel j none) (q := dump cu false F s fuel j' none)
        (es := es)
        (fun e hme => ih e hme j fuel none hjk (by
          have := height_described (d := r.descriptor) (a := .map) (mem_turned_entries hme).2; omega))
        (fun e hme => ih' e hme j' fuel none hjv (by
          have := height_described (d := r.descriptor) (a := .map) (mem_turned_entries hme).1; omega))
      refine ⟨_, fun cur hcur => ?_, by rw [shown, ← h2]; exact pairVec_dump name vals⟩
      rw [exchanged, valTree] at hcur
      have hl : mapDump false F s (dump cu false F s fuel) ob.subs cur = (.ok vals, cur) := by
        rw [hj]
        cases es with
        | nil =>
          rw [exchangedEntries, pairTrees] at hcur
          cases h1
          unfold mapDump
          rw [bind_of_ok (attestDescribed_ok hcur)]
          refine enter_described hcur (c' := inside2 cur r.descriptor (.mk .map [])) ?_ (keeps_inside2 _ _ _)
          rw [bind_of_ok (inside_readString cur r.descriptor _), bind_of_ok (lookup_of_desc (d := r.descriptor) (hd _ hr) _)]
          have h0 : (inside2 cur r.descriptor (.mk .map [])).getMap = 0 := rfl
          simp only [autoMapEnter, h0, Nat.zero_add, show 1 / 2 = 0 by decide]
          rfl
        | cons e es =>
          obtain ⟨o', ho'⟩ := obj (he e List.mem_cons_self) hjk
          obtain ⟨o'', ho''⟩ := obj (he' e List.mem_cons_self) hjv
          exact reads_mapDump_turned (hd _ hr) ho' ho'' h1 cur hcur
      rw [dump_succ ho]
      simp only [dumpWith, hkind]
      unfold autoNext
      rw [bind_of_ok hl]; rfl
  | obj c vs hc hl hv hf' ih =>
    intro i fuel name hi hf
    cases fuel with
    | zero => have := height_pos (valTree (exchanged (.obj c.descriptor (c.fields.map Field.name) vs))); omega
    | succ fuel =>
      obtain ⟨ob, ho, hb⟩ := find _ hc i hi
      obtain ⟨hkind, hsl, hsub⟩ := hb
      rw [exchanged, valTree] at hf
      have hzl : (c.fields.zip ob.subs).length = vs.length := by simp [hsl, hl]
      obtain ⟨vals, h1, h2⟩ := each_turned_fields (F := F) (rec := dump cu false F s fuel) hzl (by
        intro f j w hmem
        have hfj : (f, j) ∈ c.fields.zip ob.subs := (List.of_mem_zip hmem).1
        have hw : w ∈ vs := (List.of_mem_zip hmem).2
        obtain ⟨t, ht, hj⟩ := hsub f j hfj
        have hfw : (f, w) ∈ c.fields.zip vs := by
          obtain ⟨n, hn⟩ := List.mem_iff_getElem?.mp hmem
          rw [List.getElem?_zip_eq_some] at hn
          obtain ⟨hn1, hn2⟩ := hn
          rw [List.getElem?_zip_eq_some] at hn1
          exact List.mem_iff_getElem?.mpr ⟨n, by rw [List.getElem?_zip_eq_some]; exact ⟨hn1.1, hn2⟩⟩
        refine ⟨obj (hv f w t hfw ht) hj, ih f w t hfw ht j fuel (some f.name) hj ?_⟩
        have := height_described (d := c.descriptor) (a := .list) (mem_turned hw); omega)
      have hnames : (c.fields.zip ob.subs).map (fun x => x.1.name) = c.fields.map Field.name := by
        have : (c.fields.zip ob.subs).map (fun x => x.1.name) = ((c.fields.zip ob.subs).map Prod.fst).map Field.name := by
          rw [List.map_map]; rfl
        rw [this, List.map_fst_zip (by omega)]
      rw [hnames] at h2
      refine ⟨_, fun cur hcur => ?_, by rw [shown, ← h2]; exact pairVec_dump name vals⟩
      rw [exchanged, valTree] at hcur
      have hcd : compositeDump F s (dump cu false F s fuel) ob.subs cur = (.ok vals, cur) :=
        reads_compositeDump (hd _ hc) hsl (by rw [valTrees_length, exchangedAll_length, hl]) h1 cur hcur
      rw [dump_succ ho]
      simp only [dumpWith, hkind]
      unfold autoNext
      have : isNull cur = (.ok false, cur) := by
        simp only [isNull, look, type_of_cur hcur, described, Node.val, Atom.type]; rfl
      rw [bind_of_ok this]
      simp only [Bool.false_eq_true, if_false]
      rw [bind_of_ok hcd]; rfl

/-- Going to the payload, showing it, and coming back. -/
theorem dumpPayload_exchanged {cu : Customs} {lf : Bool} {F : Factory} {s : Schema} {i : Nat} {v : PVal} {st tr : Node} {c : Cursor}
    (hc : c.cur = some (envelopeTree (valTree (exchanged v)) st tr))
    (h : Shows (dump cu lf F s (c.fuel + 1) i (some parsedName)) (valTree (exchanged v)) (labelled (some parsedName) (shown v))) :
    dumpPayload cu lf F s i c = (.ok (parsedText v), c) := by
  obtain ⟨val, h1, h2⟩ := h
  obtain ⟨pr, cu', re, up⟩ := c
  simp only at hc
  subst hc
  unfold dumpPayload
  unfold autoEnter
  refine scope_back (c1 := ⟨[.mk (.ulong (cordaId 1)) []], some (.mk .list [valTree (exchanged v), st, tr]), [], (pr, .described, re) :: up⟩)
    (c' := ⟨[.mk (.ulong (cordaId 1)) []], some (.mk .list [valTree (exchanged v), st, tr]), [], (pr, .described, re) :: up⟩) rfl rfl ?_
    ⟨rfl, rfl, fun _ => rfl⟩
  rw [show attestList = attest .list "Expected a List" from rfl, bind_of_ok (attest_ok (by rfl)), bind_of_ok (show look Cursor.getList _ = (.ok 3, _) from rfl), if_pos rfl]
  refine scope_back (c1 := ⟨[], some (valTree (exchanged v)), [st, tr], ([.mk (.ulong (cordaId 1)) []], .list, []) :: (pr, .described, re) :: up⟩)
    rfl rfl (c' := ⟨[valTree (exchanged v)], some st, [tr], ([.mk (.ulong (cordaId 1)) []], .list, []) :: (pr, .described, re) :: up⟩) ?_
    ⟨rfl, rfl, fun _ => rfl⟩
  rw [bind_of_ok (h1 _ rfl), Prog.pure_def, h2]
  rw [parsedText_eq]
  rfl

/-- Inspecting a blob from right to left, with any factory in the state between two blobs. -/
theorem contents_exchanged {cu : Customs} {F : Factory} {K : List Str} {before : List TypeNotation} {cs : List Str}
    (hI : Inv F K before cs []) {ls : List (List TypeNotation)} {d t : Str} {v : PVal} {st tr : Node} {c : Cursor}
    (hc : c.cur = some (envelopeTree (valTree (exchanged v)) st tr)) (hr : readEnvelope c = (.ok (Schema.make ls, d), c))
    (hp : ∀ t ∈ ls.flatten, PlainType t) (ho : Ordered K ls.flatten)
    (hn : ∀ t ∈ ls.flatten.reverse ++ before, t.name ∉ readable ∧ t.name ∉ cs) (hcs : ∀ k ∈ readable, k ∉ cs)
    (hu : SameNames (ls.flatten.reverse ++ before)) (hd : SameDescriptors ls.flatten)
    (hT : Typed ls.flatten t v)
    (hv : descriptorOf v = some d) :
    ∃ F', dumpContents cu false F c = ((.ok (parsedText v), c), F') := by
  rcases run_all false ls.flatten hp hI with ⟨_, F', h1, h2, h3, h4, h5, h6⟩ | ⟨h1, -⟩
  · have hready := Inv.ready h3 hn hcs hu ls.flatten (fun t ht =>
      ⟨List.mem_append_left _ (List.mem_reverse.mpr ht),
        List.mem_append_left _ (List.mem_reverse.mpr (List.mem_map_of_mem ht))⟩)
    obtain ⟨u, hu1, hu2, hu3⟩ := typed_descriptor hT hv
    rcases h6 d with ⟨t', hm', hd', i, hi, hl⟩ | ⟨hno, -⟩
    · have : t' = u := hd t' hm' u hu1 (hd'.trans hu3.symm)
      subst this
      rw [hu2] at hi
      have hsh := dump_shows_exchanged (cu := cu) hready (fromDescriptor_of_same hd) hT i (c.fuel + 1) (some parsedName) hi (by
        unfold Cursor.fuel
        rw [hc]
        have := height_kids (v := .list) (ks := [valTree (exchanged v), st, tr]) (k := valTree (exchanged v)) (by simp)
        have := height_kids (v := .described) (ks := [.mk (.ulong (cordaId 1)) [], .mk .list [valTree (exchanged v), st, tr]])
          (k := .mk .list [valTree (exchanged v), st, tr]) (by simp)
        simp only [envelopeTree, element]
        omega)
      refine ⟨F', ?_⟩
      unfold dumpContents
      rw [hr]
      have hproc : process false (Schema.make ls) F = (.ok (), F') := by
        unfold process; rw [schema_make_types]; exact h1
      simp only [hproc, Factory.findDesc, hl, Option.join]
      simp only [Option.bind_some, id]
      rw [dumpPayload_exchanged hc hsh]
    · exact absurd hu3 (hno u hu1)
  · exact absurd ho h1

theorem descriptorOf_exchanged (v : PVal) : descriptorOf v = descriptorOf (exchanged v) := by
  cases v <;> rw [exchanged] <;> rfl

/-- **C116, from right to left.** Take any types as in C57, but with maps among them; and any value of one of them, of any depth.  Exchange
keys and values of all the maps in it, and put that and the types into an envelope as the library writes it.  Then inspecting that blob, if the
compiler evaluates arguments from right to left, shows exactly the text of the value as it was before the exchange. -/
theorem C116_exchanged (ds : List TypeDesc) (ts : List TypeNotation)
    (hm : ds.map TypeDesc.make = ts.map Res.ok) (hs : Sound true ts) (ls : List (List TypeNotation))
    (hl : insertAllR TypeNotation.dependsOn ts = .ok ls) (ho : Ordered [publicKeyType] ls.flatten)
    (t : Str) (v : PVal) (hT : Typed ts t v) (d : Str) (hv : descriptorOf v = some d) (n : Node)
    (hw : envelopeProton [valTree (exchanged v)] (schemaProton (ds.map TypeDesc.proton)) = [n]) (c : Cursor) (hc : c.cur = some n) :
    inspect false c = (.ok (parsedText v), c) := by
  have hperm := (C11_schema_types ts ls hl).1
  have hsub : ∀ t ∈ ls.flatten, t ∈ ts := fun t ht => hperm.mem_iff.mp ht
  have hs' := hs.of_subset hsub
  have hr : readEnvelope c = (.ok (Schema.make ls, d), c) := by
    obtain ⟨a, ks, hb⟩ := described_payload (descriptorOf_exchanged v ▸ hv)
    rw [hb] at hw
    have := C22_envelope_round_trip ds ts d [.mk a ks] hm c n hw hc
    rw [this, hl]
    rfl
  obtain ⟨st, tr, hcur⟩ : ∃ st tr, c.cur = some (envelopeTree (valTree (exchanged v)) st tr) := by
    have : ds.map TypeDesc.proton = (ds.map TypeDesc.tree).map fun n => [n] := by
      rw [List.map_map]
      exact List.map_congr_left fun d _ => TypeDesc.proton_eq d
    rw [this, schemaProton_eq, envelopeProton_eq] at hw
    simp only [List.cons.injEq, and_true] at hw
    exact ⟨_, _, by rw [hc, ← hw]⟩
  have hI := sane_inv (sane_install sane_empty 0 publicKeyType)
  rw [names_inspector] at hI
  obtain ⟨F', h⟩ := contents_exchanged (cu := fun _ _ => publicKeyDump) hI hcur hr hs'.plain ho
    (by
      intro t ht
      rw [List.append_nil] at ht
      have ht := List.mem_reverse.mp ht
      exact ⟨(hs'.plain t ht).1, by simpa using hs'.notCustom t ht⟩)
    (by
      intro k hk
      rw [List.mem_singleton]
      rintro rfl
      exact publicKey_not_readable hk)
    (by
      intro t ht u hu
      simp only [List.append_nil, List.mem_reverse] at ht hu
      exact hs'.names t ht u hu)
    hs'.descriptors (typed_of_subset (fun t ht => hperm.mem_iff.mpr ht) hT) hv
  unfold inspect
  rw [h]


/-- A map from texts to numbers, and its blob. -/
private def countMap : TypeDesc := .restr "java.util.Map<string, int>".toList "map".toList "fpM".toList
private def countBlob (v : PVal) : Cursor :=
  { Cursor.empty with cur := some (envelopeTree (valTree v) (schemaTree [countMap.tree]) (.mk .null [])) }
private def counts : PVal := .map "fpM".toList [.mk (.str "a".toList) (.int 1), .mk (.str "b".toList) (.int 2)]

/-- From left to right it is shown as it is.  From right to left it cannot be shown, but it could be if it had been written exchanged. -/
example : (inspect true (countBlob counts)).1 = .ok "{ Parsed : { \"a\" : 1, \"b\" : 2 } }".toList
    ∧ (inspect false (countBlob counts)).1 = .throw "Expected a String but found"
    ∧ (inspect false (countBlob (exchanged counts))).1 = .ok "{ Parsed : { \"a\" : 1, \"b\" : 2 } }".toList
    ∧ (inspect true (countBlob (exchanged counts))).1 = .throw "Expected a String but found" := by
  decide +kernel

end Corda.Props

#print axioms Corda.Props.C116_exchanged
