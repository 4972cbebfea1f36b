import Verif.Props.Factory
import Verif.Props.Descriptors

/-
C39-C42: what the readers show.
-/

namespace Corda.Props
open Corda Prog Spec FProg

theorem shownAll_eq (vs : List PVal) : shownAll vs = vs.map shown := by
  induction vs with
  | nil => rw [shownAll]; rfl
  | cons v vs ih => rw [shownAll, ih]; rfl

theorem shownEntries_eq (es : List PEntry) : shownEntries es = es.map fun e => colon (shown e.key) (shown e.value) := by
  induction es with
  | nil => rw [shownEntries]; rfl
  | cons e es ih => cases e; rw [shownEntries, ih]; rfl

theorem shownNamed_eq (ns : List Str) (vs : List PVal) :
    shownNamed ns vs = (ns.zip vs).map fun x => colon x.1 (shown x.2) := by
  induction ns generalizing vs with
  | nil => cases vs <;> rw [shownNamed] <;> simp
  | cons n ns ih =>
    cases vs with
    | nil => rw [shownNamed] <;> simp
    | cons v vs => rw [shownNamed, ih]; rfl

/-- The reader of a type that has values is there. -/
theorem reader_object {F : Factory} {ts : List TypeNotation} (hF : Ready F ts) {t : Str} {v : PVal} (hv : Typed ts t v)
    {i : Nat} (hi : ReaderFor F t i) : ∃ o, F.lock i = some o := by
  have pr : ∀ p, makePropertyReader t = .ok p → ∃ o, F.lock i = some o := by
    intro p hp
    obtain ⟨o, ho, -⟩ := hF.prims t p i hp hi
    exact ⟨o, hi.lock ho⟩
  have ty : ∀ u ∈ ts, u.name = t → ∃ o, F.lock i = some o := by
    intro u hu e
    subst e
    obtain ⟨j, o, hj, ho, -⟩ := hF.types u hu
    have : j = i := by
      unfold ReaderFor at hi hj
      rw [hi] at hj
      simpa using hj.symm
    subst this
    exact ⟨o, hi.lock ho⟩
  cases hv with
  | int => exact pr .int (by decide +kernel)
  | long => exact pr .long (by decide +kernel)
  | double => exact pr .double (by decide +kernel)
  | bool => exact pr .boolean (by decide +kernel)
  | str => exact pr .string (by decide +kernel)
  | bin => exact pr .binary (by decide +kernel)
  | null c h => exact ty _ h rfl
  | enum r cs k o h => exact ty _ h rfl
  | list r l es h => exact ty _ h rfl
  | map r k v es h => exact ty _ h rfl
  | obj c vs h => exact ty _ h rfl

/-! ### C39 -/

/-- **C39.** A reader of a list or array type, wherever the cursor is on a list of that type, shows exactly one entry
per element, in order, and steps on; the list may have any length and any depth (as deep as the tree, for the fuel).
If there are map types among the types, for arguments evaluated from left to right (C40). -/
theorem C39_lists (cu : Customs) (leftFirst : Bool) (F : Factory) (s : Schema) (ts : List TypeNotation) (hF : Ready F ts)
    (hd : ∀ t ∈ ts, s.fromDescriptor t.descriptor = .ok t)
    (hmaps : ∀ r k v, .restr r ∈ ts → r.kind = .map k v → leftFirst = true) (r : Restricted) (l : Str) (hr : .restr r ∈ ts)
    (hk : r.kind = .list l ∨ r.kind = .array l) (es : List PVal) (he : ∀ e ∈ es, Typed ts l e) (i : Nat)
    (hi : ReaderFor F r.name i) (fuel : Nat) (hf : (valTree (.list r.descriptor es)).height ≤ fuel) (name : Option Str)
    (c : Cursor) (hc : c.cur = some (valTree (.list r.descriptor es))) :
    ∃ val, dump cu leftFirst F s fuel i name c = (.ok val, c.next.2)
      ∧ val.dump = labelled name (brackets (es.map shown)) := by
  obtain ⟨val, h1, h2⟩ := dump_shows (cu := cu) (lf := leftFirst) hF hd hmaps (.list r l es hr hk he) i fuel name hi hf
  exact ⟨val, h1 c hc, by rw [h2, shown, shownAll_eq]⟩

/-! ### C40 -/

/-- **C40, what does hold.** If the compiler evaluates the arguments of a call from left to right: a reader of a map
type, wherever the cursor is on a map of that type, shows exactly one `key : value` entry per pair, in order. -/
theorem C40_maps_partial (cu : Customs) (F : Factory) (s : Schema) (ts : List TypeNotation) (hF : Ready F ts)
    (hd : ∀ t ∈ ts, s.fromDescriptor t.descriptor = .ok t) (r : Restricted) (k v : Str) (hr : .restr r ∈ ts)
    (hk : r.kind = .map k v) (es : List PEntry) (he : ∀ e ∈ es, Typed ts k e.key ∧ Typed ts v e.value) (i : Nat)
    (hi : ReaderFor F r.name i) (fuel : Nat) (hf : (valTree (.map r.descriptor es)).height ≤ fuel) (name : Option Str)
    (c : Cursor) (hc : c.cur = some (valTree (.map r.descriptor es))) :
    ∃ val, dump cu true F s fuel i name c = (.ok val, c.next.2)
      ∧ val.dump = labelled name (braces (es.map fun e => colon (shown e.key) (shown e.value))) := by
  obtain ⟨val, h1, h2⟩ := dump_shows (cu := cu) (lf := true) hF hd (fun _ _ _ _ _ => rfl)
    (.map r k v es hr hk (fun e h => (he e h).1) (fun e h => (he e h).2)) i fuel name hi hf
  exact ⟨val, h1 c hc, by rw [h2, shown, shownEntries_eq]⟩

/-- Reading values and keys by turns, each with the reader of the other. -/
theorem times_reads_swapped {k v : Prog Val} {es : List PEntry} {vals : List Val}
    (h : Each (fun e w => ∃ a b, Reads v (valTree e.key) a ∧ Reads k (valTree e.value) b ∧ w = .valuePair b a) es vals) :
    ∀ c, At (pairTrees es) [] c →
      ∃ c', times (mapEntry false k v) es.length c = (.ok vals, c') ∧ Keeps c c' := by
  induction h with
  | nil => intro c _; exact ⟨c, rfl, Keeps.refl c⟩
  | cons h1 h2 ih =>
    rename_i e w es vs
    intro c hc
    obtain ⟨a, b, ha, hb, rfl⟩ := h1
    cases e with
    | mk ek ev =>
      rw [pairTrees] at hc
      obtain ⟨c', h3, h4⟩ := ih c.next.2.next.2 hc.next.next
      refine ⟨c', ?_, ((Cursor.next_keeps c).trans (Cursor.next_keeps _)).trans h4⟩
      have : mapEntry false k v c = (.ok (.valuePair b a), c.next.2.next.2) := by
        unfold mapEntry
        rw [if_neg (by simp), bind_of_ok (ha c hc.1), bind_of_ok (hb _ hc.next.1)]; rfl
      rw [List.length_cons, times, bind_of_ok this, bind_of_ok h3]
      rfl

/-- **C40, if arguments are evaluated right to left.** Then a map whose keys and values are of the same type (and hold
no maps) is shown with every key and value exchanged, whatever the map. -/
theorem C40_exchanged (cu : Customs) (F : Factory) (s : Schema) (ts : List TypeNotation) (hF : Ready F ts)
    (hd : ∀ t ∈ ts, s.fromDescriptor t.descriptor = .ok t) (hno : ∀ r k v, .restr r ∈ ts → r.kind ≠ .map k v)
    (r : Restricted) (k : Str) (hk : r.kind = .map k k) (hF' : Ready F [.restr r])
    (hd' : s.fromDescriptor r.descriptor = .ok (.restr r)) (es : List PEntry)
    (he : ∀ e ∈ es, Typed ts k e.key ∧ Typed ts k e.value) (i : Nat) (hi : ReaderFor F r.name i) (fuel : Nat)
    (hf : (valTree (.map r.descriptor es)).height ≤ fuel) (name : Option Str)
    (c : Cursor) (hc : c.cur = some (valTree (.map r.descriptor es))) :
    ∃ val, dump cu false F s fuel i name c = (.ok val, c.next.2)
      ∧ val.dump = labelled name (braces (es.map fun e => colon (shown e.value) (shown e.key))) := by
  have sh : ∀ j fuel v, ReaderFor F k j → Typed ts k v → (valTree v).height ≤ fuel →
      Shows (dump cu false F s fuel j none) (valTree v) (shown v) := fun j fuel v hj hv hf =>
    dump_shows (cu := cu) (lf := false) hF hd (fun r k v hr hk => absurd hk (hno r k v hr)) hv j fuel none hj hf
  cases fuel with
  | zero => have := height_pos (valTree (.map r.descriptor es)); omega
  | succ fuel =>
    obtain ⟨i', ob, hi', ho, hb⟩ := hF'.types _ (List.mem_singleton.mpr rfl)
    have : i' = i := by
      unfold ReaderFor at hi hi'
      have h2 : F.byType.lookup r.name = some (some i') := hi'
      rw [hi] at h2
      simpa using h2.symm
    subst this
    simp only [Built, hk] at hb
    obtain ⟨hkind, j, j', hj, hjk, hjv⟩ := hb
    have hjj : j = j' := by
      unfold ReaderFor at hjk hjv
      rw [hjk] at hjv
      simpa using hjv
    subst hjj
    rw [valTree] at hf hc
    obtain ⟨vals, h1, h2⟩ : ∃ vals, Each (fun e w => ∃ a b, Reads (dump cu false F s fuel j none) (valTree e.key) a ∧
        Reads (dump cu false F s fuel j none) (valTree e.value) b ∧ w = .valuePair b a) es vals ∧
        vals.map Val.dump = es.map fun e => colon (shown e.value) (shown e.key) := by
      have hh : ∀ e ∈ es, (valTree e.key).height ≤ fuel ∧ (valTree e.value).height ≤ fuel := fun e hme => by
        have := height_described (d := r.descriptor) (a := .map) (mem_pairTrees hme).1
        have := height_described (d := r.descriptor) (a := .map) (mem_pairTrees hme).2
        omega
      clear hc hf
      induction es with
      | nil => exact ⟨[], .nil, rfl⟩
      | cons e es ih =>
        obtain ⟨vals, h1, h2⟩ := ih (fun e he' => he e (List.mem_cons_of_mem _ he')) (fun e he' => hh e (List.mem_cons_of_mem _ he'))
        obtain ⟨t1, t2⟩ := he e List.mem_cons_self
        obtain ⟨f1, f2⟩ := hh e List.mem_cons_self
        obtain ⟨a, h3, h4⟩ := sh j fuel _ hjk t1 f1
        obtain ⟨b, h5, h6⟩ := sh j fuel _ hjk t2 f2
        refine ⟨.valuePair b a :: vals, .cons ⟨a, b, h3, h5, rfl⟩ h1, ?_⟩
        rw [List.map_cons, List.map_cons, h2, Val.dump, h4, h6]; rfl
    refine ⟨_, ?_, by rw [← h2]; exact pairVec_dump name vals⟩
    have hl : mapDump false F s (dump cu false F s fuel) ob.subs c = (.ok vals, c) := by
      rw [hj]
      unfold mapDump
      rw [bind_of_ok (attestDescribed_ok hc)]
      obtain ⟨c', h3, h4⟩ := times_reads_swapped h1 _ (at_start (pairTrees es) (([Node.mk (.symbol r.descriptor) []], .map, []) ::
        (c.prev, .described, c.rest) :: c.up))
      refine enter_described hc (c' := inside2 c r.descriptor (.mk .map (pairTrees es))) ?_ (keeps_inside2 _ _ _)
      rw [bind_of_ok (inside_readString c r.descriptor _), bind_of_ok (lookup_of_desc hd' _)]
      unfold autoMapEnter
      refine scope_back (c1 := (⟨[], none, pairTrees es, ([Node.mk (.symbol r.descriptor) []], .map, []) ::
        (c.prev, .described, c.rest) :: c.up⟩ : Cursor).next.2) rfl rfl ?_ ((Cursor.next_keeps _).trans h4)
      have hn : (inside2 c r.descriptor (.mk .map (pairTrees es))).getMap = 2 * es.length := pairTrees_length es
      simp only [hn, show (2 * es.length + 1) / 2 = es.length by omega]
      cases es with
      | nil => cases h1; exact h3
      | cons e es =>
        have hu : useReader F (dump cu false F s fuel) j = dump cu false F s fuel j none := by
          obtain ⟨t1, -⟩ := he e List.mem_cons_self
          obtain ⟨o, ho⟩ := reader_object hF t1 hjk
          simp [useReader, ho]
        rw [hu]
        exact h3
    rw [dump_succ ho]
    simp only [dumpWith, hkind]
    unfold autoNext
    rw [bind_of_ok hl]; rfl

/-- A map of texts with one entry, and its blob. -/
def textMap : TypeDesc := .restr "java.util.Map<string, string>".toList "map".toList "fpM".toList
def textMapBlob : Cursor :=
  { Cursor.empty with cur := some (envelopeTree
      (valTree (.map "fpM".toList [.mk (.str "key".toList) (.str "value".toList)])) (schemaTree [textMap.tree]) (.mk .null [])) }

/-- **C40 is violated** if arguments are evaluated right to left (the order is unspecified): the blob of a map with one
entry from `key` to `value` is shown as one from `value` to `key`. -/
theorem C40_maps_violated :
    (inspect true textMapBlob).1 = .ok "{ Parsed : { \"key\" : \"value\" } }".toList
    ∧ (inspect false textMapBlob).1 = .ok "{ Parsed : { \"value\" : \"key\" } }".toList := by
  decide +kernel

/-! ### C41 and C42 -/

/-- **C41.** A reader of a composite type, wherever the cursor is on an object of that type, shows exactly one entry per
field of the schema, in the order of the schema, each with the field's name and the text of its value, to any depth.  A
null is shown as a null.  If there are map types among the types, for arguments evaluated from left to right (C40). -/
theorem C41_objects (cu : Customs) (leftFirst : Bool) (F : Factory) (s : Schema) (ts : List TypeNotation) (hF : Ready F ts)
    (hd : ∀ t ∈ ts, s.fromDescriptor t.descriptor = .ok t)
    (hmaps : ∀ r k v, .restr r ∈ ts → r.kind = .map k v → leftFirst = true) (t : Composite) (ht : .comp t ∈ ts) (vs : List PVal)
    (hl : vs.length = t.fields.length)
    (hv : ∀ f v, (f, v) ∈ t.fields.zip vs → ∃ u, f.resolvedType = .ok u ∧ Typed ts u v) (i : Nat)
    (hi : ReaderFor F t.name i) (fuel : Nat) (name : Option Str) :
    (∀ ns, (valTree (.obj t.descriptor ns vs)).height ≤ fuel → ∀ c : Cursor, c.cur = some (valTree (.obj t.descriptor ns vs)) →
      ∃ val, dump cu leftFirst F s fuel i name c = (.ok val, c.next.2)
        ∧ val.dump = labelled name (braces ((t.fields.zip vs).map fun x => colon x.1.name (shown x.2))))
    ∧ (1 ≤ fuel → ∀ c : Cursor, c.cur = some (.mk .null []) →
      ∃ val, dump cu leftFirst F s fuel i name c = (.ok val, c.next.2) ∧ val.dump = labelled name "<<NULL>>".toList) := by
  have hzip : (t.fields.map Field.name).zip vs = (t.fields.zip vs).map fun x => (x.1.name, x.2) := by
    rw [List.zip_map_left]; rfl
  constructor
  · intro ns hf c hc
    have hT : Typed ts t.name (.obj t.descriptor (t.fields.map Field.name) vs) := by
      refine .obj t vs ht hl ?_ ?_
      · intro f v u hm hu
        obtain ⟨u', hu', hT⟩ := hv f v hm
        rw [hu] at hu'
        cases hu'
        exact hT
      · intro f hf'
        obtain ⟨n, hn⟩ := List.mem_iff_getElem?.mp hf'
        have hlt : n < vs.length := by
          have := (List.getElem?_eq_some_iff.mp hn).1
          omega
        obtain ⟨u, hu, -⟩ := hv f vs[n] (List.mem_iff_getElem?.mpr ⟨n, by
          rw [List.getElem?_zip_eq_some]; exact ⟨hn, by simp [hlt]⟩⟩)
        exact ⟨u, hu⟩
    have htree : valTree (.obj t.descriptor ns vs) = valTree (.obj t.descriptor (t.fields.map Field.name) vs) := by
      rw [valTree, valTree]
    rw [htree] at hc hf
    obtain ⟨val, h1, h2⟩ := dump_shows (cu := cu) (lf := leftFirst) hF hd hmaps hT i fuel name hi hf
    refine ⟨val, h1 c hc, ?_⟩
    rw [h2, shown, shownNamed_eq, hzip, List.map_map]
    rfl
  · intro hf c hc
    obtain ⟨val, h1, h2⟩ := dump_shows (cu := cu) (lf := leftFirst) hF hd hmaps (.null t ht) i fuel name hi
      (by rw [valTree]; simpa [Node.height, Node.height.heights] using hf)
    exact ⟨val, h1 c (by rw [hc, valTree]), by rw [h2, shown]; rfl⟩

/-- **C42, what does hold.** In a list or array of composites with nulls at any positions, each null is shown as a null
and each object as itself. -/
theorem C42_null_elements_partial (cu : Customs) (leftFirst : Bool) (F : Factory) (s : Schema) (ts : List TypeNotation) (hF : Ready F ts)
    (hd : ∀ t ∈ ts, s.fromDescriptor t.descriptor = .ok t)
    (hmaps : ∀ r k v, .restr r ∈ ts → r.kind = .map k v → leftFirst = true) (r : Restricted) (t : Composite) (hr : .restr r ∈ ts)
    (ht : .comp t ∈ ts) (hk : r.kind = .list t.name ∨ r.kind = .array t.name) (es : List (Option PVal))
    (he : ∀ e ∈ es, ∀ v, e = some v → Typed ts t.name v) (i : Nat) (hi : ReaderFor F r.name i) (fuel : Nat)
    (hf : (valTree (.list r.descriptor (es.map (·.getD .null)))).height ≤ fuel) (name : Option Str)
    (c : Cursor) (hc : c.cur = some (valTree (.list r.descriptor (es.map (·.getD .null))))) :
    ∃ val, dump cu leftFirst F s fuel i name c = (.ok val, c.next.2) ∧ val.dump = labelled name (brackets (es.map fun e =>
      match e with | none => "<<NULL>>".toList | some v => shown v)) := by
  obtain ⟨val, h1, h2⟩ := C39_lists cu leftFirst F s ts hF hd hmaps r t.name hr hk (es.map (·.getD .null)) (by
    intro e hm
    obtain ⟨o, ho, rfl⟩ := List.mem_map.mp hm
    cases o with
    | none => exact .null t ht
    | some v => exact he _ ho v rfl) i hi fuel hf name c hc
  refine ⟨val, h1, ?_⟩
  rw [h2, List.map_map]
  congr 2
  refine List.map_congr_left fun e _ => ?_
  cases e with
  | none => simp only [Function.comp, Option.getD_none, shown]; rfl
  | some v => simp only [Function.comp, Option.getD_some]

/-- The blob of a payload with the descriptions of its types. -/
def blobOf (ds : List TypeDesc) (payload : Node) : Cursor :=
  { Cursor.empty with cur := some (envelopeTree payload (schemaTree (ds.map TypeDesc.tree)) (.mk .null [])) }

def intListT : TypeDesc := .restr "java.util.List<int>".toList "list".toList "fpL".toList
def textListT : TypeDesc := .restr "java.util.List<string>".toList "list".toList "fpL".toList
def listListT : TypeDesc := .restr "java.util.List<java.util.List<int>>".toList "list".toList "fpLL".toList

/-- **C42 is violated** for everything but composites: a null among integers is shown as 0, a null among texts or lists
makes the inspection fail. -/
theorem C42_null_elements_violated :
    (inspect true (blobOf [intListT] (described "fpL".toList (.mk .list [.mk (.int 3) [], .mk .null []])))).1
      = .ok "{ Parsed : [ 3, 0 ] }".toList
    ∧ (inspect true (blobOf [textListT] (described "fpL".toList (.mk .list [.mk .null []])))).1.Throws
    ∧ (inspect true (blobOf [intListT, listListT] (described "fpLL".toList (.mk .list [.mk .null []])))).1.Throws := by
  decide +kernel

/-! ### A whole blob -/

/-- The descriptor of a described value. -/
def descriptorOf : PVal → Option Str
  | .obj d _ _ => some d
  | .list d _ => some d
  | .map d _ => some d
  | .enum d _ _ => some d
  | _ => none

/-- The text of a blob's contents. -/
def parsedText (v : PVal) : Str := "{ Parsed : ".toList ++ shown v ++ " }".toList

theorem parsedText_eq (v : PVal) : labelled (some parsedName) (shown v) ++ mapClose = parsedText v := by
  have h1 : parsedName ++ " : ".toList = "{ Parsed : ".toList := by decide +kernel
  have h2 : mapClose = " }".toList := by decide +kernel
  rw [h2]
  unfold parsedText labelled colon
  rw [← h1]

/-- Going to the payload, showing it, and coming back. -/
theorem dumpPayload_shows {cu : Customs} {lf : Bool} {F : Factory} {s : Schema} {i : Nat} {v : PVal} {st tr : Node} {c : Cursor}
    (hc : c.cur = some (envelopeTree (valTree v) st tr))
    (h : Shows (dump cu lf F s (c.fuel + 1) i (some parsedName)) (valTree v) (labelled (some parsedName) (shown v))) :
    dumpPayload cu lf F s i c = (.ok (parsedText v), c) := by
  obtain ⟨val, h1, h2⟩ := h
  obtain ⟨pr, cu', re, up⟩ := c
  simp only at hc
  subst hc
  unfold dumpPayload
  unfold autoEnter
  refine scope_back (c1 := ⟨[.mk (.ulong (cordaId 1)) []], some (.mk .list [valTree v, st, tr]), [], (pr, .described, re) :: up⟩)
    (c' := ⟨[.mk (.ulong (cordaId 1)) []], some (.mk .list [valTree v, st, tr]), [], (pr, .described, re) :: up⟩) rfl rfl ?_
    ⟨rfl, rfl, fun _ => rfl⟩
  rw [show attestList = attest .list "Expected a List" from rfl, bind_of_ok (attest_ok (by rfl)), bind_of_ok (show look Cursor.getList _ = (.ok 3, _) from rfl), if_pos rfl]
  refine scope_back (c1 := ⟨[], some (valTree v), [st, tr], ([.mk (.ulong (cordaId 1)) []], .list, []) :: (pr, .described, re) :: up⟩)
    rfl rfl (c' := ⟨[valTree v], some st, [tr], ([.mk (.ulong (cordaId 1)) []], .list, []) :: (pr, .described, re) :: up⟩) ?_
    ⟨rfl, rfl, fun _ => rfl⟩
  rw [bind_of_ok (h1 _ rfl), Prog.pure_def, h2]
  rw [parsedText_eq]
  rfl

theorem typed_of_subset {ts us : List TypeNotation} (h : ∀ t ∈ ts, t ∈ us) {t : Str} {v : PVal} (hv : Typed ts t v) :
    Typed us t v := by
  induction hv with
  | int n => exact .int n
  | long n => exact .long n
  | double n => exact .double n
  | bool n => exact .bool n
  | str n => exact .str n
  | bin n => exact .bin n
  | null c hc => exact .null c (h _ hc)
  | enum r cs k o hr hk hm => exact .enum r cs k o (h _ hr) hk hm
  | list r l es hr hk _ ih => exact .list r l es (h _ hr) hk ih
  | map r k v es hr hk _ _ ih ih' => exact .map r k v es (h _ hr) hk ih ih'
  | obj c vs hc hl _ hf ih => exact .obj c vs (h _ hc) hl ih hf

/-- Types with the same descriptor are the same. -/
def SameDescriptors (ts : List TypeNotation) : Prop := ∀ t ∈ ts, ∀ t' ∈ ts, t.descriptor = t'.descriptor → t = t'

theorem fromDescriptor_of_same {ls : List (List TypeNotation)} (h : SameDescriptors ls.flatten) :
    ∀ t ∈ ls.flatten, (Schema.make ls).fromDescriptor t.descriptor = .ok t := by
  intro t ht
  rw [(C16_lookup ls t.descriptor).2]
  cases hf : ls.flatten.find? (fun u => t.descriptor == u.descriptor) with
  | none =>
    have := List.find?_eq_none.mp hf t ht
    simp at this
  | some u =>
    have hm := List.mem_of_find?_eq_some hf
    have hp : t.descriptor = u.descriptor := by have := List.find?_some hf; simpa using this
    simp only
    rw [h t ht u hm hp]

theorem typed_descriptor {ts : List TypeNotation} {t d : Str} {v : PVal} (h : Typed ts t v) (hd : descriptorOf v = some d) :
    ∃ u ∈ ts, u.name = t ∧ u.descriptor = d := by
  cases h with
  | enum r cs k o hr => exact ⟨_, hr, rfl, Option.some.inj hd⟩
  | list r l es hr => exact ⟨_, hr, rfl, Option.some.inj hd⟩
  | map r k v es hr => exact ⟨_, hr, rfl, Option.some.inj hd⟩
  | obj c vs hc => exact ⟨_, hc, rfl, Option.some.inj hd⟩
  | _ => simp [descriptorOf] at hd

theorem described_payload {v : PVal} {d : Str} (hd : descriptorOf v = some d) : ∃ a ks, valTree v = described d (.mk a ks) := by
  cases v <;> simp only [descriptorOf, Option.some.injEq, reduceCtorEq] at hd <;> subst hd <;>
    (rw [valTree]; exact ⟨_, _, rfl⟩)

/-- Inspecting a blob, with any factory in the state between two blobs. -/
theorem contents_shown {cu : Customs} {lf : Bool} {F : Factory} {K : List Str} {before : List TypeNotation} {cs : List Str}
    (hI : Inv F K before cs []) {ls : List (List TypeNotation)} {d t : Str} {v : PVal} {st tr : Node} {c : Cursor}
    (hc : c.cur = some (envelopeTree (valTree v) st tr)) (hr : readEnvelope c = (.ok (Schema.make ls, d), c))
    (hp : ∀ t ∈ ls.flatten, PlainType t) (ho : Ordered K ls.flatten)
    (hn : ∀ t ∈ ls.flatten.reverse ++ before, t.name ∉ readable ∧ t.name ∉ cs) (hcs : ∀ k ∈ readable, k ∉ cs)
    (hu : SameNames (ls.flatten.reverse ++ before)) (hd : SameDescriptors ls.flatten)
    (hm : ∀ r k v, .restr r ∈ ls.flatten → r.kind = .map k v → lf = true) (hT : Typed ls.flatten t v)
    (hv : descriptorOf v = some d) :
    ∃ F', dumpContents cu lf F c = ((.ok (parsedText v), c), F') := by
  rcases run_all lf ls.flatten hp hI with ⟨_, F', h1, h2, h3, h4, h5, h6⟩ | ⟨h1, -⟩
  · have hready := Inv.ready h3 hn hcs hu ls.flatten (fun t ht =>
      ⟨List.mem_append_left _ (List.mem_reverse.mpr ht),
        List.mem_append_left _ (List.mem_reverse.mpr (List.mem_map_of_mem ht))⟩)
    obtain ⟨u, hu1, hu2, hu3⟩ := typed_descriptor hT hv
    rcases h6 d with ⟨t', hm', hd', i, hi, hl⟩ | ⟨hno, -⟩
    · have : t' = u := hd t' hm' u hu1 (hd'.trans hu3.symm)
      subst this
      rw [hu2] at hi
      have hsh := dump_shows (cu := cu) (lf := lf) hready (fromDescriptor_of_same hd) hm hT i (c.fuel + 1) (some parsedName) hi (by
        unfold Cursor.fuel
        rw [hc]
        have := height_kids (v := .list) (ks := [valTree v, st, tr]) (k := valTree v) (by simp)
        have := height_kids (v := .described) (ks := [.mk (.ulong (cordaId 1)) [], .mk .list [valTree v, st, tr]])
          (k := .mk .list [valTree v, st, tr]) (by simp)
        simp only [envelopeTree, element]
        omega)
      refine ⟨F', ?_⟩
      unfold dumpContents
      rw [hr]
      have hproc : process lf (Schema.make ls) F = (.ok (), F') := by
        unfold process; rw [schema_make_types]; exact h1
      simp only [hproc, Factory.findDesc, hl, Option.join]
      simp only [Option.bind_some, id]
      rw [dumpPayload_shows hc hsh]
    · exact absurd hu3 (hno u hu1)
  · exact absurd ho h1

/-- What is asked of the types of a blob: plain fields, no name of a primitive or custom type, types of the same name or
the same descriptor are the same, and maps only if arguments are evaluated left to right. -/
structure Sound (leftFirst : Bool) (ts : List TypeNotation) : Prop where
  plain : ∀ t ∈ ts, PlainType t
  notCustom : ∀ t ∈ ts, t.name ≠ publicKeyType
  names : SameNames ts
  descriptors : SameDescriptors ts
  maps : ∀ r k v, .restr r ∈ ts → r.kind = .map k v → leftFirst = true

theorem Sound.of_subset {lf : Bool} {ts us : List TypeNotation} (h : ∀ t ∈ us, t ∈ ts) (hs : Sound lf ts) : Sound lf us :=
  ⟨fun t ht => hs.plain t (h t ht), fun t ht => hs.notCustom t (h t ht), fun t ht u hu => hs.names t (h t ht) u (h u hu),
    fun t ht u hu => hs.descriptors t (h t ht) u (h u hu), fun r k v hr => hs.maps r k v (h _ hr)⟩

theorem names_inspector : names (Factory.empty.installCustom 0 publicKeyType) = [publicKeyType] := by decide +kernel

theorem publicKey_not_readable : publicKeyType ∉ readable := by decide +kernel

/-- **C57.** Take any list of type descriptions that make sense (`Sound`) and that the library puts into an order in
which every type follows those it needs; and any value of one of these types, however deep.  Put both into an envelope as
the library writes it.  Then inspecting that blob shows exactly the text of the value, and leaves the cursor where it was. -/
theorem C57_inspect (leftFirst : Bool) (ds : List TypeDesc) (ts : List TypeNotation)
    (hm : ds.map TypeDesc.make = ts.map Res.ok) (hs : Sound leftFirst ts) (ls : List (List TypeNotation))
    (hl : insertAllR TypeNotation.dependsOn ts = .ok ls) (ho : Ordered [publicKeyType] ls.flatten)
    (t : Str) (v : PVal) (hT : Typed ts t v) (d : Str) (hv : descriptorOf v = some d) (n : Node)
    (hw : envelopeProton [valTree v] (schemaProton (ds.map TypeDesc.proton)) = [n]) (c : Cursor) (hc : c.cur = some n) :
    inspect leftFirst c = (.ok (parsedText v), c) := by
  have hperm := (C11_schema_types ts ls hl).1
  have hsub : ∀ t ∈ ls.flatten, t ∈ ts := fun t ht => hperm.mem_iff.mp ht
  have hs' := hs.of_subset hsub
  have hr : readEnvelope c = (.ok (Schema.make ls, d), c) := by
    obtain ⟨a, ks, hb⟩ := described_payload hv
    rw [hb] at hw
    have := C22_envelope_round_trip ds ts d [.mk a ks] hm c n hw hc
    rw [this, hl]
    rfl
  obtain ⟨st, tr, hcur⟩ : ∃ st tr, c.cur = some (envelopeTree (valTree v) st tr) := by
    have : ds.map TypeDesc.proton = (ds.map TypeDesc.tree).map fun n => [n] := by
      rw [List.map_map]
      exact List.map_congr_left fun d _ => TypeDesc.proton_eq d
    rw [this, schemaProton_eq, envelopeProton_eq] at hw
    simp only [List.cons.injEq, and_true] at hw
    exact ⟨_, _, by rw [hc, ← hw]⟩
  have hI := sane_inv (sane_install sane_empty 0 publicKeyType)
  rw [names_inspector] at hI
  obtain ⟨F', h⟩ := contents_shown (cu := fun _ _ => publicKeyDump) hI hcur hr hs'.plain ho
    (by
      intro t ht
      rw [List.append_nil] at ht
      have ht := List.mem_reverse.mp ht
      exact ⟨(hs'.plain t ht).1, by simpa using hs'.notCustom t ht⟩)
    (by
      intro k hk
      rw [List.mem_singleton]
      rintro rfl
      exact publicKey_not_readable hk)
    (by
      intro t ht u hu
      simp only [List.append_nil, List.mem_reverse] at ht hu
      exact hs'.names t ht u hu)
    hs'.descriptors hs'.maps (typed_of_subset (fun t ht => hperm.mem_iff.mpr ht) hT) hv
  unfold inspect
  rw [h]

/-- **C39 of a whole blob**, with the readers the factory makes for its schema. -/
theorem C39_blob (leftFirst : Bool) (ds : List TypeDesc) (ts : List TypeNotation)
    (hm : ds.map TypeDesc.make = ts.map Res.ok) (hs : Sound leftFirst ts) (ls : List (List TypeNotation))
    (hl : insertAllR TypeNotation.dependsOn ts = .ok ls) (ho : Ordered [publicKeyType] ls.flatten)
    (r : Restricted) (l : Str) (hr : .restr r ∈ ts) (hk : r.kind = .list l ∨ r.kind = .array l) (es : List PVal)
    (he : ∀ e ∈ es, Typed ts l e) (v : PVal) (hv : v = .list r.descriptor es) (n : Node)
    (hw : envelopeProton [valTree v] (schemaProton (ds.map TypeDesc.proton)) = [n]) (c : Cursor) (hc : c.cur = some n) :
    (inspect leftFirst c).1 = .ok ("{ Parsed : ".toList ++ brackets (es.map shown) ++ " }".toList) := by
  subst hv
  have hd : descriptorOf (.list r.descriptor es) = some r.descriptor := by rw [descriptorOf]
  have h := C57_inspect leftFirst ds ts hm hs ls hl ho r.name (.list r.descriptor es) (.list r l es hr hk he) r.descriptor hd n hw c hc
  rw [h]
  unfold parsedText
  rw [shown, shownAll_eq]

/-- **C40 of a whole blob**, with the readers the factory makes for its schema, for arguments evaluated from left to right. -/
theorem C40_blob_partial (ds : List TypeDesc) (ts : List TypeNotation)
    (hm : ds.map TypeDesc.make = ts.map Res.ok) (hs : Sound true ts) (ls : List (List TypeNotation))
    (hl : insertAllR TypeNotation.dependsOn ts = .ok ls) (ho : Ordered [publicKeyType] ls.flatten)
    (r : Restricted) (k w : Str) (hr : .restr r ∈ ts) (hk : r.kind = .map k w) (es : List PEntry)
    (he : ∀ e ∈ es, Typed ts k e.key ∧ Typed ts w e.value) (v : PVal) (hv : v = .map r.descriptor es) (n : Node)
    (hw : envelopeProton [valTree v] (schemaProton (ds.map TypeDesc.proton)) = [n]) (c : Cursor) (hc : c.cur = some n) :
    (inspect true c).1
      = .ok ("{ Parsed : ".toList ++ braces (es.map fun e => colon (shown e.key) (shown e.value)) ++ " }".toList) := by
  subst hv
  have hd : descriptorOf (.map r.descriptor es) = some r.descriptor := by rw [descriptorOf]
  have h := C57_inspect true ds ts hm hs ls hl ho r.name (.map r.descriptor es)
    (.map r k w es hr hk (fun e h => (he e h).1) (fun e h => (he e h).2)) r.descriptor hd n hw c hc
  rw [h]
  unfold parsedText
  rw [shown, shownEntries_eq]

/-- **C41 of a whole blob**, with the readers the factory makes for its schema. -/
theorem C41_blob (leftFirst : Bool) (ds : List TypeDesc) (ts : List TypeNotation)
    (hm : ds.map TypeDesc.make = ts.map Res.ok) (hs : Sound leftFirst ts) (ls : List (List TypeNotation))
    (hl : insertAllR TypeNotation.dependsOn ts = .ok ls) (ho : Ordered [publicKeyType] ls.flatten)
    (t : Composite) (ht : .comp t ∈ ts) (vs : List PVal) (hlen : vs.length = t.fields.length)
    (hf : ∀ f x u, (f, x) ∈ t.fields.zip vs → f.resolvedType = .ok u → Typed ts u x) (hres : ∀ f ∈ t.fields, ∃ u, f.resolvedType = .ok u)
    (v : PVal) (hv : v = .obj t.descriptor (t.fields.map Field.name) vs) (n : Node)
    (hw : envelopeProton [valTree v] (schemaProton (ds.map TypeDesc.proton)) = [n]) (c : Cursor) (hc : c.cur = some n) :
    (inspect leftFirst c).1
      = .ok ("{ Parsed : ".toList ++ braces ((t.fields.zip vs).map fun x => colon x.1.name (shown x.2)) ++ " }".toList) := by
  subst hv
  have hd : descriptorOf (.obj t.descriptor (t.fields.map Field.name) vs) = some t.descriptor := by rw [descriptorOf]
  have h := C57_inspect leftFirst ds ts hm hs ls hl ho t.name (.obj t.descriptor (t.fields.map Field.name) vs) (.obj t vs ht hlen hf hres)
    t.descriptor hd n hw c hc
  have hz : ((t.fields.map Field.name).zip vs).map (fun x => colon x.1 (shown x.2)) = (t.fields.zip vs).map fun x => colon x.1.name (shown x.2) := by
    rw [List.zip_map_left, List.map_map]
    rfl
  rw [h]
  unfold parsedText
  rw [shown, shownNamed_eq, hz]

theorem ordered_append {K : List Str} {l m : List TypeNotation} (h : ∀ t ∈ l, served K t)
    (hm : Ordered (l.reverse.map TypeNotation.name ++ K) m) : Ordered K (l ++ m) := by
  induction l generalizing K with
  | nil => exact hm
  | cons t l ih =>
    refine ⟨.inr (h t List.mem_cons_self), ih (fun u hu => served_mono (h u (List.mem_cons_of_mem _ hu)) (fun k hk => List.mem_cons_of_mem _ hk)) ?_⟩
    simpa using hm

/-- All that a type mentions is available: a primitive type that can be read, or known. -/
theorem served_of_mentions {K : List Str} {t : TypeNotation} (hp : PlainType t)
    (h : ∀ n, mentions t n = true → n ∈ readable ∨ n ∈ K) : served K t := by
  cases t with
  | comp c =>
    intro f hf
    have hpf := hp.2 c rfl f hf
    obtain ⟨n, hn⟩ := hpf.named
    have hm := h n (by simp only [mentions, List.any_eq_true]; exact ⟨f, hf, by simp [hn]⟩)
    by_cases hk : f.kind = .primitive
    · unfold fieldServed
      rw [hk]
      have : n = f.type := by simp [fieldTypeName, hk] at hn; exact hn.symm
      subst this
      exact hm
    · have hm := hm.resolve_left (hpf.notPrimitive hk n hn)
      unfold fieldServed
      cases hk' : f.kind with
      | primitive => exact absurd hk' hk
      | _ => exact ⟨n, hn, .inr hm⟩
  | restr r =>
    unfold served
    dsimp only
    cases hk : r.kind with
    | list l => exact h l (by simp [mentions, hk])
    | array l => exact h l (by simp [mentions, hk])
    | map k v => exact ⟨h k (by simp [mentions, hk]), h v (by simp [mentions, hk])⟩
    | enum cs => trivial

theorem ordered_of_levels {ls : List (List TypeNotation)} {K : List Str} (hp : ∀ t ∈ ls.flatten, PlainType t)
    (h : ∀ (i : Nat) (L : List TypeNotation), ls[i]? = some L → ∀ t ∈ L, ∀ n, mentions t n = true →
      n ∈ readable ∨ n ∈ K ∨ ∃ (j : Nat) (M : List TypeNotation), j < i ∧ ls[j]? = some M ∧ ∃ u ∈ M, u.name = n) :
    Ordered K ls.flatten := by
  induction ls generalizing K with
  | nil => trivial
  | cons L ls ih =>
    rw [List.flatten_cons] at hp ⊢
    refine ordered_append (fun t ht => served_of_mentions (hp t (List.mem_append_left _ ht)) fun n hn => ?_) ?_
    · rcases h 0 L rfl t ht n hn with h1 | h1 | ⟨j, M, hj, -⟩
      · exact .inl h1
      · exact .inr h1
      · omega
    · refine ih (fun t ht => hp t (List.mem_append_right _ ht)) fun i M hM t ht n hn => ?_
      rcases h (i + 1) M (by simpa using hM) t ht n hn with h1 | h1 | ⟨j, N, hj, hN, u, hu, rfl⟩
      · exact .inl h1
      · exact .inr (.inl (List.mem_append_right _ h1))
      · cases j with
        | zero =>
          simp only [List.getElem?_cons_zero, Option.some.injEq] at hN
          subst hN
          exact .inr (.inl (List.mem_append_left _ (List.mem_map_of_mem (List.mem_reverse.mpr hu))))
        | succ j => exact .inr (.inr ⟨j, N, by omega, by simpa using hN, u, hu, rfl⟩)

/-- If all types a schema mentions are primitive types that can be read, custom, or among the schema's types, and every
type comes strictly after those it needs, then there is a reader for each. -/
theorem ordered_of_earlier {ls : List (List TypeNotation)} {K : List Str} (hp : ∀ t ∈ ls.flatten, PlainType t)
    (hc : ∀ t ∈ ls.flatten, ∀ n, mentions t n = true → n ∈ readable ∨ n ∈ K ∨ ∃ u ∈ ls.flatten, u.name = n)
    (he : NeedsEarlier (fun a b => needs a b = true) ls) : Ordered K ls.flatten := by
  refine ordered_of_levels hp fun i L hL t ht n hn => ?_
  rcases hc t (List.mem_flatten.mpr ⟨L, List.mem_of_getElem? hL, ht⟩) n hn with h | h | ⟨u, hu, rfl⟩
  · exact .inl h
  · exact .inr (.inl h)
  · obtain ⟨M, hM, hu⟩ := List.mem_flatten.mp hu
    obtain ⟨j, hj⟩ := List.mem_iff_getElem?.mp hM
    exact .inr (.inr ⟨j, M, he i j L M hL hj t ht u hu hn, hj, u, hu, rfl⟩)

/-- **C57, without reference to the order the library computes.** As above; instead of the computed order, ask that the
types are pairwise regular (where the dependency code is right), that no two need each other, that they arrive as
`C13_schema_types_partial` asks, and that all they mention is there. -/
theorem C57_inspect_regular (leftFirst : Bool) (ds : List TypeDesc) (ts : List TypeNotation)
    (hm : ds.map TypeDesc.make = ts.map Res.ok) (hs : Sound leftFirst ts)
    (hreg : ∀ a ∈ ts, ∀ b ∈ ts, Regular a b)
    (hmut : ∀ a ∈ ts, ∀ b ∈ ts, ¬ (needs a b = true ∧ needs b a = true))
    (htr : ∀ pre x post, ts = pre ++ x :: post → ∀ d ∈ pre, ∀ n ∈ pre,
      needs d x = true → needs x n = true → needs d n = true)
    (hall : ∀ t ∈ ts, ∀ n, mentions t n = true → n ∈ readable ∨ n = publicKeyType ∨ ∃ u ∈ ts, u.name = n)
    (t : Str) (v : PVal) (hT : Typed ts t v) (d : Str) (hv : descriptorOf v = some d) (n : Node)
    (hw : envelopeProton [valTree v] (schemaProton (ds.map TypeDesc.proton)) = [n]) (c : Cursor) (hc : c.cur = some n) :
    inspect leftFirst c = (.ok (parsedText v), c) := by
  obtain ⟨ls, hl, hp, he⟩ := C13_schema_types_partial ts hreg hmut htr
  refine C57_inspect leftFirst ds ts hm hs ls hl (ordered_of_earlier (fun t ht => hs.plain t (hp.mem_iff.mp ht)) ?_ he) t v hT d hv
    n hw c hc
  intro t ht n hn
  rcases hall t (hp.mem_iff.mp ht) n hn with h | h | ⟨u, hu, rfl⟩
  · exact .inl h
  · exact .inr (.inl (by simp [h]))
  · exact .inr (.inr ⟨u, hp.mem_iff.mpr hu, rfl⟩)

/-- **C45, seen from outside.** A factory that has processed any sequence of schemas shows a further blob as a fresh one
does, if all types of the same name in all these schemas are the same. -/
theorem C45_reuse_text_partial (cu : Customs) (leftFirst : Bool) (ss : List Schema) (F : Factory)
    (hF : processMany leftFirst ss Factory.empty = (.ok (), F)) (ds : List TypeDesc) (ts : List TypeNotation)
    (hm : ds.map TypeDesc.make = ts.map Res.ok) (ls : List (List TypeNotation))
    (hl : insertAllR TypeNotation.dependsOn ts = .ok ls) (ho : Ordered [] ls.flatten)
    (hp : ∀ t ∈ (ss.flatMap fun u => u.types.flatten) ++ ts, PlainType t)
    (hu : SameNames ((ss.flatMap fun u => u.types.flatten) ++ ts)) (hd : SameDescriptors ts)
    (hmaps : ∀ r k v, .restr r ∈ ts → r.kind = .map k v → leftFirst = true)
    (t : Str) (v : PVal) (hT : Typed ts t v) (d : Str) (hv : descriptorOf v = some d) (n : Node)
    (hw : envelopeProton [valTree v] (schemaProton (ds.map TypeDesc.proton)) = [n]) (c : Cursor) (hc : c.cur = some n) :
    (dumpContents cu leftFirst F c).1 = (.ok (parsedText v), c)
      ∧ (dumpContents cu leftFirst Factory.empty c).1 = (.ok (parsedText v), c) := by
  have hperm := (C11_schema_types ts ls hl).1
  have hsub : ∀ t ∈ ls.flatten, t ∈ ts := fun t ht => hperm.mem_iff.mp ht
  have hr : readEnvelope c = (.ok (Schema.make ls, d), c) := by
    obtain ⟨a, ks, hb⟩ := described_payload hv
    rw [hb] at hw
    have := C22_envelope_round_trip ds ts d [.mk a ks] hm c n hw hc
    rw [this, hl]
    rfl
  obtain ⟨st, tr, hcur⟩ : ∃ st tr, c.cur = some (envelopeTree (valTree v) st tr) := by
    have : ds.map TypeDesc.proton = (ds.map TypeDesc.tree).map fun n => [n] := by
      rw [List.map_map]
      exact List.map_congr_left fun d _ => TypeDesc.proton_eq d
    rw [this, schemaProton_eq, envelopeProton_eq] at hw
    simp only [List.cons.injEq, and_true] at hw
    exact ⟨_, _, by rw [hc, ← hw]⟩
  have h0 : Inv Factory.empty [] [] [] [] := sane_inv sane_empty
  obtain ⟨K, hI, -, -⟩ := many_inv leftFirst ss (fun s hs t ht =>
    hp t (List.mem_append_left _ (List.mem_flatMap.mpr ⟨s, hs, ht⟩))) h0 hF
  have go : ∀ {G : Factory} {K : List Str} {before : List TypeNotation}, Inv G K before [] [] →
      (∀ t ∈ before, t ∈ ss.flatMap fun u => u.types.flatten) →
      (dumpContents cu leftFirst G c).1 = (.ok (parsedText v), c) := by
    intro G K before hG hb
    have hmem : ∀ t ∈ ls.flatten.reverse ++ before, t ∈ (ss.flatMap fun u => u.types.flatten) ++ ts := by
      intro t ht
      rcases List.mem_append.mp ht with h | h
      · exact List.mem_append_right _ (hsub t (List.mem_reverse.mp h))
      · exact List.mem_append_left _ (hb t h)
    obtain ⟨F', h⟩ := contents_shown (cu := cu) (lf := leftFirst) hG hcur hr
      (fun t ht => hp t (List.mem_append_right _ (hsub t ht))) (Ordered.mono (by simp) _ ho)
      (fun t ht => ⟨(hp t (hmem t ht)).1, by simp⟩) (by simp)
      (fun t ht u hu' => hu t (hmem t ht) u (hmem u hu'))
      (fun t ht u hu' => hd t (hsub t ht) u (hsub u hu')) (fun r k v hr => hmaps r k v (hsub _ hr))
      (typed_of_subset (fun t ht => hperm.mem_iff.mpr ht) hT) hv
    rw [h]
  refine ⟨go hI ?_, go h0 (by simp)⟩
  intro t ht
  simp only [List.append_nil, List.mem_flatMap, List.mem_reverse, List.mem_map] at ht ⊢
  obtain ⟨l, ⟨s, hs, rfl⟩, ht⟩ := ht
  exact ⟨s, hs, ht⟩

/-! ### Examples -/

/-- A schema with a class `In`, lists of it, and a class `Out` with such a list, an `In`, a text and a truth value. -/
def inD : TypeDesc := .comp "In".toList [] [] "fpIn".toList [⟨"x".toList, "int".toList, [], [], [], true, false⟩]
def listD : TypeDesc := .restr "java.util.List<In>".toList "list".toList "fpL".toList
def outD : TypeDesc := .comp "Out".toList [] [] "fpOut".toList
  [⟨"l".toList, "*".toList, ["java.util.List<In>".toList], [], [], true, false⟩,
   ⟨"i".toList, "In".toList, [], [], [], true, false⟩,
   ⟨"t".toList, "string".toList, [], [], [], true, false⟩,
   ⟨"b".toList, "boolean".toList, [], [], [], true, false⟩]
def inV (n : Int) : PVal := .obj "fpIn".toList ["x".toList] [.int n]
def outV : PVal := .obj "fpOut".toList ["l".toList, "i".toList, "t".toList, "b".toList]
  [.list "fpL".toList [inV 1, .null, inV (-2)], .null, .str "hi".toList, .bool true]

example : (inspect true (blobOf [inD, listD, outD] (valTree outV))).1 =
    .ok "{ Parsed : { l : [ { x : 1 }, <<NULL>>, { x : -2 } ], i : <<NULL>>, t : \"hi\", b : 1 } }".toList := by
  decide +kernel

/-- The order in which the descriptions arrive may vary. -/
example : (inspect true (blobOf [outD, listD, inD] (valTree outV))).1 =
    (inspect true (blobOf [inD, listD, outD] (valTree outV))).1 := by
  decide +kernel

def madeIn : TypeNotation := .comp ⟨"In".toList, [], [], "fpIn".toList, [⟨.primitive, "x".toList, "int".toList, [], [], [], true, false, []⟩]⟩
def madeList : TypeNotation := .restr ⟨"java.util.List<In>".toList, [], [], "fpL".toList, .list "In".toList⟩

theorem made_example : [listD, inD].map TypeDesc.make = [madeList, madeIn].map Res.ok := by decide +kernel

theorem sound_example (leftFirst : Bool) : Sound leftFirst [madeList, madeIn] := by
  refine ⟨?_, ?_, ?_, ?_, ?_⟩
  · intro t ht
    simp only [List.mem_cons, List.not_mem_nil, or_false] at ht
    rcases ht with rfl | rfl
    · exact ⟨by decide +kernel, fun c hc => by simp [madeList] at hc⟩
    · refine ⟨by decide +kernel, fun c hc f hf => ?_⟩
      simp only [madeIn, TypeNotation.comp.injEq] at hc
      subst hc
      simp only [List.mem_singleton] at hf
      subst hf
      exact ⟨by decide, ⟨_, rfl⟩, fun h => absurd rfl h⟩
  · decide +kernel
  · unfold SameNames; decide +kernel
  · unfold SameDescriptors; decide +kernel
  · intro r k v hr hk
    simp only [List.mem_cons, List.not_mem_nil, or_false, madeList, madeIn, TypeNotation.restr.injEq, reduceCtorEq] at hr
    subst hr
    simp at hk

/-- `C41_blob` applies: every `In` is shown with its one field. -/
example (leftFirst : Bool) (n : Int) :
    (inspect leftFirst (blobOf [listD, inD] (valTree (inV n)))).1
      = .ok ("{ Parsed : ".toList ++ braces [colon "x".toList (shown (.int n))] ++ " }".toList) := by
  refine C41_blob leftFirst [listD, inD] [madeList, madeIn] made_example (sound_example leftFirst) [[madeIn], [madeList]]
    (by decide +kernel) (by decide +kernel)
    ⟨"In".toList, [], [], "fpIn".toList, [⟨.primitive, "x".toList, "int".toList, [], [], [], true, false, []⟩]⟩ (by simp [madeIn])
    [.int n] rfl ?_ ?_ (inV n) rfl _ ?_ _ rfl
  · intro f v t hm ht
    simp only [List.zip_cons_cons, List.zip_nil_right, List.mem_singleton, Prod.mk.injEq] at hm
    obtain ⟨rfl, rfl⟩ := hm
    have : t = "int".toList := by simpa [Field.resolvedType] using ht.symm
    subst this
    exact .int n
  · intro f hf
    simp only [List.mem_singleton] at hf
    subst hf
    exact ⟨_, rfl⟩
  · have : [listD, inD].map TypeDesc.proton = ([listD, inD].map TypeDesc.tree).map fun n => [n] := by
      rw [List.map_map]
      exact List.map_congr_left fun d _ => TypeDesc.proton_eq d
    rw [this, schemaProton_eq, envelopeProton_eq]

/-- `C57_inspect` applies: any list of `In`s, nulls among them, is shown. -/
example (leftFirst : Bool) (es : List (Option Int)) :
    inspect leftFirst (blobOf [listD, inD] (valTree (.list "fpL".toList (es.map fun e => match e with | some n => inV n | none => .null))))
      = (.ok (parsedText (.list "fpL".toList (es.map fun e => match e with | some n => inV n | none => .null))),
         blobOf [listD, inD] (valTree (.list "fpL".toList (es.map fun e => match e with | some n => inV n | none => .null)))) := by
  refine C57_inspect leftFirst [listD, inD] [madeList, madeIn] made_example (sound_example leftFirst) [[madeIn], [madeList]]
    (by decide +kernel) (by decide +kernel) "java.util.List<In>".toList _ ?_ "fpL".toList rfl _ ?_ _ rfl
  · refine .list ⟨"java.util.List<In>".toList, [], [], "fpL".toList, .list "In".toList⟩ "In".toList _ (by simp [madeList])
      (.inl rfl) ?_
    intro e he
    obtain ⟨o, -, rfl⟩ := List.mem_map.mp he
    cases o with
    | none => exact .null ⟨"In".toList, [], [], "fpIn".toList, _⟩ (by simp only [madeIn, madeList, List.mem_cons, reduceCtorEq, false_or]; exact .inl rfl)
    | some n =>
      refine .obj ⟨"In".toList, [], [], "fpIn".toList, [⟨.primitive, "x".toList, "int".toList, [], [], [], true, false, []⟩]⟩ [.int n]
        (by simp [madeIn]) rfl ?_ ?_
      · intro f v t hm ht
        simp only [List.zip_cons_cons, List.zip_nil_right, List.mem_singleton, Prod.mk.injEq] at hm
        obtain ⟨rfl, rfl⟩ := hm
        have : t = "int".toList := by simpa [Field.resolvedType] using ht.symm
        subst this
        exact .int n
      · intro f hm
        simp only [List.mem_singleton] at hm
        subst hm
        exact ⟨_, rfl⟩
  · have : [listD, inD].map TypeDesc.proton = ([listD, inD].map TypeDesc.tree).map fun n => [n] := by
      rw [List.map_map]
      exact List.map_congr_left fun d _ => TypeDesc.proton_eq d
    rw [this, schemaProton_eq, envelopeProton_eq]

end Corda.Props

#print axioms Corda.Props.C39_lists
#print axioms Corda.Props.C39_blob
#print axioms Corda.Props.C40_blob_partial
#print axioms Corda.Props.C41_blob
#print axioms Corda.Props.C40_maps_partial
#print axioms Corda.Props.C40_exchanged
#print axioms Corda.Props.C40_maps_violated
#print axioms Corda.Props.C41_objects
#print axioms Corda.Props.C42_null_elements_partial
#print axioms Corda.Props.C42_null_elements_violated
#print axioms Corda.Props.C45_reuse_text_partial
#print axioms Corda.Props.C57_inspect
#print axioms Corda.Props.C57_inspect_regular
