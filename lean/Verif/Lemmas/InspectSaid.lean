import Verif.Spec.InspectSaid
import Verif.Lemmas.InspectTrace
import Verif.Lemmas.Readers

/-
What the traced readers print for values of the types of a schema.
-/

namespace Corda
open Prog Spec

/-- Who speaks. -/
def voices (p : Paths) : Voices := ⟨p .intReader, p .stringReader, p .compositeReader, p .mapReader, p .wrapper⟩

namespace TProg

/-! ### What a program prints, step by step -/

theorem out_bind {α β : Type} {q : TProg α} {f : α → TProg β} {c c' : Cursor} {a : α} (h : (q c).1 = (.ok a, c')) :
    ((q >>= f) c).2 = (q c).2 ++ (f a c').2 := by
  rw [TProg.bind_def]
  revert h
  rcases q c with ⟨⟨r, c1⟩, o⟩
  intro h
  simp only [Prod.mk.injEq] at h
  obtain ⟨rfl, rfl⟩ := h
  rfl

theorem out_quiet {α β : Type} {q : Prog α} {f : α → TProg β} {c c' : Cursor} {a : α} (h : q c = (.ok a, c')) :
    ((quiet q >>= f) c).2 = (f a c').2 := by
  rw [out_bind (q := quiet q) (c' := c') (a := a) h]
  rfl

theorem out_dbg {β : Type} (file : Str) (line : Nat) (text : Str) (f : Unit → TProg β) (c : Cursor) :
    ((dbg file line text >>= f) c).2 = remark file (natStr line) text :: (f () c).2 := by
  rw [out_bind (q := dbg file line text) (c' := c) (a := ()) rfl]
  rfl

theorem out_readText {β : Type} {f : Str → TProg β} {c c' : Cursor} {a : Str} (h : Prog.readString false c = (.ok a, c')) :
    ((readText >>= f) c).2 = textRead :: (f a c').2 := by
  have e : (readText false c).1 = (.ok a, c') := by
    have := congrFun (erase_readText false) c
    rw [← h, ← this]
    rfl
  have e2 : (readText false c).2 = [textRead] := by
    unfold readText
    rw [out_bind (q := print "STRING".toList) (c' := c) (a := ()) rfl]
    rfl
  rw [out_bind e, e2]
  rfl

theorem out_map {α β : Type} (q : TProg α) (g : α → β) (c : Cursor) : ((q >>= fun a => pure (g a)) c).2 = (q c).2 := by
  rw [TProg.bind_def]
  rcases q c with ⟨⟨r, c1⟩, o⟩
  cases r
  · exact List.append_nil o
  · rfl
  · rfl

/-- On that node, the program returns, moves on and prints that. -/
def Utters {α : Type} (q : TProg α) (n : Node) (out : List Str) : Prop := ∃ w, ∀ c : Cursor, c.cur = some n → q c = ((.ok w, c.next.2), out)

theorem utters_of {q : TProg Val} {n : Node} {t : Str} {out : List Str} (h : Shows (erase q) n t)
    (ho : ∀ c : Cursor, c.cur = some n → (q c).2 = out) : Utters q n out := by
  obtain ⟨w, h1, -⟩ := h
  exact ⟨w, fun c hc => Prod.ext (h1 c hc) (ho c hc)⟩

theorem out_times {q : TProg Val} {L : PVal → List Str} {es : List PVal} (h : ∀ e ∈ es, Utters q (valTree e) (L e)) :
    ∀ c, At (valTrees es) [] c → (times q es.length c).2 = es.flatMap L := by
  induction es with
  | nil => intro c _; rfl
  | cons e es ih =>
    intro c hc
    rw [valTrees] at hc
    obtain ⟨w, hw⟩ := h e List.mem_cons_self
    have h1 := hw c hc.1
    rw [List.length_cons, times, out_bind (congrArg Prod.fst h1), h1, out_map, ih (fun e he => h e (List.mem_cons_of_mem _ he)) _ hc.next,
      List.flatMap_cons]

theorem out_entries {q r : TProg Val} {L : PVal → List Str} {es : List PEntry} (hk : ∀ e ∈ es, Utters q (valTree e.key) (L e.key))
    (hv : ∀ e ∈ es, Utters r (valTree e.value) (L e.value)) :
    ∀ c, At (pairTrees es) [] c → (times (mapEntry true q r) es.length c).2 = es.flatMap fun e => L e.key ++ L e.value := by
  induction es with
  | nil => intro c _; rfl
  | cons e es ih =>
    intro c hc
    obtain ⟨a, ha⟩ := hk e List.mem_cons_self
    obtain ⟨b, hb⟩ := hv e List.mem_cons_self
    have ih := ih (fun e he => hk e (List.mem_cons_of_mem _ he)) (fun e he => hv e (List.mem_cons_of_mem _ he)) c.next.2.next.2
    cases e with
    | mk ek ev =>
      rw [pairTrees] at hc
      simp only [PEntry.key, PEntry.value] at ha hb
      have h1 := ha c hc.1
      have h2 := hb _ hc.next.1
      have hm : mapEntry true q r c = ((.ok (.valuePair a b), c.next.2.next.2), L ek ++ L ev) := by
        unfold mapEntry
        rw [if_pos rfl, TProg.bind_def, h1]
        simp only
        rw [TProg.bind_def, h2]
        simp only
        refine Prod.ext rfl ?_
        show L ek ++ (L ev ++ []) = _
        rw [List.append_nil]
      rw [List.length_cons, times, out_bind (congrArg Prod.fst hm), hm, out_map, ih hc.next.next, List.flatMap_cons]
      rfl

theorem out_fields {p : Paths} {F : Factory} {rec : Nat → Option Str → TProg Val} {L : Str → PVal → List Str} {fs : List (Field × Nat)}
    {vs : List PVal} (hl : fs.length = vs.length)
    (h : ∀ f j v, ((f, j), v) ∈ fs.zip vs → (∃ o, F.lock j = some o) ∧ Utters (rec j (some f.name)) (valTree v) (L f.name v)) :
    ∀ c, At (valTrees vs) [] c → (dumpFields p F rec fs c).2
      = (fs.zip vs).flatMap fun x => fieldRemark (voices p) x.1.1.name :: L x.1.1.name x.2 := by
  induction fs generalizing vs with
  | nil => intro c _; rfl
  | cons f fs ih =>
    cases vs with
    | nil => simp at hl
    | cons v vs =>
      intro c hc
      obtain ⟨f, j⟩ := f
      rw [valTrees] at hc
      obtain ⟨⟨o, ho⟩, w, hw⟩ := h f j v (by rw [List.zip_cons_cons]; exact List.mem_cons_self)
      have ih := ih (by simpa using hl) (fun f j v hm => h f j v (by rw [List.zip_cons_cons]; exact List.mem_cons_of_mem _ hm)) _ hc.next
      have h1 := hw c hc.1
      rw [dumpFields]
      simp only [ho]
      rw [out_dbg, out_bind (congrArg Prod.fst h1), h1, out_map, ih, List.zip_cons_cons, List.flatMap_cons]
      rfl

/-! ### Lists, maps and objects -/

theorem out_enter {α : Type} (q : TProg α) {c : Cursor} {d : Str} {b : Node} (hc : c.cur = some (described d b)) :
    (autoEnter q false c).2 = (q (inside c d b)).2 := by
  obtain ⟨pr, cu, re, up⟩ := c
  simp only at hc
  subst hc
  rfl

theorem out_listDump {F : Factory} {s : Schema} {rec : Nat → Option Str → TProg Val} {i : Nat} {d : Str} {t : TypeNotation}
    {es : List PVal} {L : PVal → List Str} (hd : s.fromDescriptor d = .ok t) (ho : es ≠ [] → ∃ o, F.lock i = some o)
    (h : ∀ e ∈ es, Utters (rec i none) (valTree e) (L e)) (c : Cursor) (hc : c.cur = some (described d (.mk .list (valTrees es)))) :
    (listDump F s rec [i] c).2 = textRead :: es.flatMap L := by
  unfold listDump
  rw [out_quiet (attestDescribed_ok hc), out_enter _ hc, out_readText (inside_readString c d _), out_quiet (lookup_of_desc hd _)]
  have hn : (inside2 c d (.mk .list (valTrees es))).getList = es.length := valTrees_length es
  unfold listEnter
  rw [hn]
  congr 1
  cases es with
  | nil => rfl
  | cons e es =>
    obtain ⟨o, ho⟩ := ho (by simp)
    have hu : useReader F rec i = rec i none := by simp [useReader, ho]
    simp only [hu, if_true]
    exact out_times h _ (at_start (valTrees (e :: es)) (([Node.mk (.symbol d) []], .list, []) :: (c.prev, .described, c.rest) :: c.up))

theorem out_mapDump {p : Paths} {F : Factory} {s : Schema} {rec : Nat → Option Str → TProg Val} {i j : Nat} {d : Str} {t : TypeNotation}
    {es : List PEntry} {L : PVal → List Str} (hd : s.fromDescriptor d = .ok t)
    (ho : es ≠ [] → (∃ o, F.lock i = some o) ∧ ∃ o, F.lock j = some o)
    (hk : ∀ e ∈ es, Utters (rec i none) (valTree e.key) (L e.key)) (hv : ∀ e ∈ es, Utters (rec j none) (valTree e.value) (L e.value))
    (c : Cursor) (hc : c.cur = some (described d (.mk .map (pairTrees es)))) :
    (mapDump p true F s rec [i, j] c).2
      = textRead :: remark (p .mapReader) (natStr 44) ("  ".toList ++ natStr (2 * es.length)) :: es.flatMap fun e => L e.key ++ L e.value := by
  unfold mapDump
  rw [out_quiet (attestDescribed_ok hc), out_enter _ hc, out_readText (inside_readString c d _), out_quiet (lookup_of_desc hd _)]
  have hn : (inside2 c d (.mk .map (pairTrees es))).getMap = 2 * es.length := pairTrees_length es
  unfold autoMapEnter
  rw [hn]
  congr 1
  unfold scope
  simp only
  rw [out_dbg]
  congr 1
  cases es with
  | nil => rfl
  | cons e es =>
    obtain ⟨⟨o, ho⟩, o', ho'⟩ := ho (by simp)
    have hu : useReader F rec i = rec i none := by simp [useReader, ho]
    have hu' : useReader F rec j = rec j none := by simp [useReader, ho']
    simp only [hu, hu', show (2 * (e :: es).length + 1) / 2 = (e :: es).length by omega]
    exact out_entries hk hv _ (at_start (pairTrees (e :: es)) (([Node.mk (.symbol d) []], .map, []) :: (c.prev, .described, c.rest) :: c.up))

theorem out_compositeDump {p : Paths} {F : Factory} {s : Schema} {rec : Nat → Option Str → TProg Val} {subs : List Nat} {d : Str}
    {t : Composite} {vs : List PVal} {L : Str → PVal → List Str} (hd : s.fromDescriptor d = .ok (.comp t))
    (hs : subs.length = t.fields.length) (hn : vs.length = t.fields.length)
    (h : ∀ f j v, ((f, j), v) ∈ (t.fields.zip subs).zip vs →
      (∃ o, F.lock j = some o) ∧ Utters (rec j (some f.name)) (valTree v) (L f.name v))
    (c : Cursor) (hc : c.cur = some (described d (.mk .list (valTrees vs)))) :
    (compositeDump p F s rec subs c).2 = remark (p .compositeReader) (natStr 46) "Read Composite: ".toList ::
      remark (p .wrapper) (natStr 299) "YEP! it's a list".toList ::
      ((t.fields.zip subs).zip vs).flatMap fun x => fieldRemark (voices p) x.1.1.name :: L x.1.1.name x.2 := by
  unfold compositeDump
  rw [out_dbg, out_quiet (attestDescribed_ok hc), out_enter _ hc, out_quiet (inside_getSymbol c d _), out_quiet (lookup_of_desc hd _)]
  simp only [hs, if_true]
  rw [out_quiet (show Prog.next (inside c d (.mk .list (valTrees vs))) = (.ok true, inside2 c d (.mk .list (valTrees vs))) from rfl)]
  congr 1
  have hcl : (checkList p (inside2 c d (.mk .list (valTrees vs)))).1 = (.ok (), inside2 c d (.mk .list (valTrees vs))) := by
    have := congrFun (erase_checkList p) (inside2 c d (.mk .list (valTrees vs)))
    exact this
  rw [out_bind hcl]
  have hco : (checkList p (inside2 c d (.mk .list (valTrees vs)))).2 = [remark (p .wrapper) (natStr 299) "YEP! it's a list".toList] := by
    unfold checkList
    rw [out_quiet (show Prog.attestList (inside2 c d (.mk .list (valTrees vs))) = (.ok (), inside2 c d (.mk .list (valTrees vs))) from rfl)]
    rfl
  rw [hco, List.singleton_append]
  congr 1
  exact out_fields (by simp [hs, hn]) h _ (at_start (valTrees vs) (([Node.mk (.symbol d) []], .list, []) :: (c.prev, .described, c.rest) :: c.up))

/-! ### The main lemma -/

theorem remarksAll_eq (s : Voices) (vs : List PVal) : remarksAll s vs = vs.flatMap (remarks s none) := by
  induction vs with
  | nil => rw [remarksAll]; rfl
  | cons v vs ih => rw [remarksAll, ih, List.flatMap_cons]

theorem remarksEntries_eq (s : Voices) (es : List PEntry) :
    remarksEntries s es = es.flatMap fun e => remarks s none e.key ++ remarks s none e.value := by
  induction es with
  | nil => rw [remarksEntries]; rfl
  | cons e es ih => cases e; rw [remarksEntries, ih, List.flatMap_cons]; rfl

theorem remarksNamed_eq (s : Voices) (fs : List (Field × Nat)) (vs : List PVal) : remarksNamed s (fs.map fun x => x.1.name) vs =
    (fs.zip vs).flatMap fun x => fieldRemark s x.1.1.name :: remarks s (some x.1.1.name) x.2 := by
  induction fs generalizing vs with
  | nil => rw [List.map_nil, remarksNamed]; · rfl
           · intros; contradiction
  | cons f fs ih =>
    cases vs with
    | nil => rw [List.map_cons, remarksNamed]; · rfl
             · intros; contradiction
    | cons v vs =>
      rw [List.map_cons, remarksNamed, ih, List.zip_cons_cons, List.flatMap_cons]
      rfl

theorem out_property_int (p : Paths) (name : Option Str) (n : Int) (c : Cursor) (h : c.cur = some (valTree (.int n))) :
    (propertyDump p name .int c).2 = intRemarks (voices p) n name := by
  have hr : Prog.propertyText .int c = (.ok (shown (.int n)), c.next.2) := (reads_property (by simp)) c h
  rw [shown] at hr
  cases name with
  | none =>
    unfold propertyDump
    simp only
    rw [out_dbg, out_map, show natStr 63 = "63".toList by decide]
    rfl
  | some f =>
    unfold propertyDump
    simp only
    rw [out_dbg, out_dbg, out_quiet hr, out_dbg, show natStr 37 = "37".toList by decide, show natStr 39 = "39".toList by decide,
      show natStr 43 = "43".toList by decide]
    rfl

theorem out_property_string (p : Paths) (name : Option Str) (t : Str) (c : Cursor) (h : c.cur = some (valTree (.str t))) :
    (propertyDump p name .string c).2 = [textRemark (voices p) name, textRead] := by
  have hr : Prog.readString false c = (.ok t, c.next.2) := by
    rw [valTree] at h
    simp only [Prog.readString, Prog.autoNext, Cursor.val, h, Option.map_some, Node.val]
  cases name with
  | none =>
    unfold propertyDump
    simp only
    rw [out_dbg, out_readText hr, show natStr 50 = "50".toList by decide]
    rfl
  | some f =>
    unfold propertyDump
    simp only
    rw [out_dbg, out_readText hr, show natStr 36 = "36".toList by decide]
    rfl

theorem out_enumValue (d k : Str) (o : Int) (c : Cursor) (hc : c.cur = some (valTree (.enum d k o))) :
    (enumValue c).2 = [textRead, textRead] := by
  rw [valTree] at hc
  unfold enumValue
  rw [out_quiet (attestDescribed_ok hc), out_enter _ hc, out_quiet (show look Cursor.type (inside c d _) = (.ok .symbol, _) from rfl),
    out_quiet (show look getUlong (inside c d _) = (.ok 0, _) from rfl), if_neg (by simp), out_readText (inside_readString c d _)]
  rfl

theorem tdump_succ {p : Paths} {cu : Customs} {lf : Bool} {F : Factory} {s : Schema} {fuel i : Nat} {o : Ser} (ho : F.objs[i]? = some o)
    (name : Option Str) :
    dump p cu lf F s (fuel + 1) i name = dumpWith p cu lf F s (dump p cu lf F s fuel) o name := by
  rw [dump, ho]

/-- **The reader of a type says about the values of that type what it should.** -/
theorem dump_utters {p : Paths} {cu : Customs} {lf : Bool} {F : Factory} {s : Schema} {ts : List TypeNotation} (hF : Ready F ts)
    (hd : ∀ t ∈ ts, s.fromDescriptor t.descriptor = .ok t)
    (hm : ∀ r k v, .restr r ∈ ts → r.kind = .map k v → lf = true) {t : Str} {v : PVal} (h : Typed ts t v) :
    ∀ i fuel name, ReaderFor F t i → (valTree v).height ≤ fuel →
      Utters (dump p cu lf F s fuel i name) (valTree v) (remarks (voices p) name v) := by
  have hok : ∀ {t : Str} {v : PVal}, Typed ts t v → ∀ i fuel name, ReaderFor F t i → (valTree v).height ≤ fuel →
      Shows (erase (dump p cu lf F s fuel i name)) (valTree v) (labelled name (shown v)) := by
    intro t v h i fuel name hi hf
    rw [erase_dump]
    exact dump_shows hF hd hm h i fuel name hi hf
  have prim : ∀ (k : Str) (q : PrimReader) (v : PVal), makePropertyReader k = .ok q → Typed ts k v →
      (∀ name c, c.cur = some (valTree v) → (propertyDump p name q c).2 = remarks (voices p) name v) →
      ∀ i fuel name, ReaderFor F k i → (valTree v).height ≤ fuel →
      Utters (dump p cu lf F s fuel i name) (valTree v) (remarks (voices p) name v) := by
    intro k q v hk hT hr i fuel name hi hf
    refine utters_of (hok hT i fuel name hi hf) ?_
    intro c hc
    cases fuel with
    | zero => have := height_pos (valTree v); omega
    | succ fuel =>
      obtain ⟨o, ho, hp⟩ := hF.prims k q i hk hi
      rw [tdump_succ ho]
      simp only [dumpWith, hp]
      exact hr name c hc
  have find : ∀ t ∈ ts, ∀ i, ReaderFor F t.name i → ∃ o, F.objs[i]? = some o ∧ Built F t o := by
    intro t ht i hi
    obtain ⟨j, o, hj, ho, hb⟩ := hF.types t ht
    have : i = j := by
      have := hi.symm.trans hj; simpa using this
    subst this
    exact ⟨o, ho, hb⟩
  have obj : ∀ {t : Str} {v : PVal} {i : Nat}, Typed ts t v → ReaderFor F t i → ∃ o, F.lock i = some o := by
    intro t v i hv hi
    have pr : ∀ p, makePropertyReader t = .ok p → ∃ o, F.lock i = some o := by
      intro p hp
      obtain ⟨o, ho, -⟩ := hF.prims t p i hp hi
      exact ⟨o, hi.lock ho⟩
    have ty : ∀ u ∈ ts, u.name = t → ∃ o, F.lock i = some o := by
      intro u hu e
      subst e
      obtain ⟨o, ho, -⟩ := find u hu i hi
      exact ⟨o, hi.lock ho⟩
    cases hv with
    | int => exact pr .int (by decide +kernel)
    | long => exact pr .long (by decide +kernel)
    | double => exact pr .double (by decide +kernel)
    | bool => exact pr .boolean (by decide +kernel)
    | str => exact pr .string (by decide +kernel)
    | bin => exact pr .binary (by decide +kernel)
    | null c h => exact ty _ h rfl
    | enum r cs k o h => exact ty _ h rfl
    | list r l es h => exact ty _ h rfl
    | map r k v es h => exact ty _ h rfl
    | obj c vs h => exact ty _ h rfl
  have still : ∀ (q : PrimReader) name c, q ≠ .int → q ≠ .string → (propertyDump p name q c).2 = [] := by
    intro q name c h1 h2
    cases q <;> first | exact absurd rfl h1 | exact absurd rfl h2 | exact out_map _ _ c
  induction h with
  | int n => exact prim _ .int _ (by decide +kernel) (.int n) (fun name c hc => by rw [remarks]; exact out_property_int p name n c hc)
  | long n => exact prim _ .long _ (by decide +kernel) (.long n) (fun name c hc => by rw [remarks]; exact still _ name c nofun nofun)
  | double n => exact prim _ .double _ (by decide +kernel) (.double n) (fun name c hc => by rw [remarks]; exact still _ name c nofun nofun)
  | bool n => exact prim _ .boolean _ (by decide +kernel) (.bool n) (fun name c hc => by rw [remarks]; exact still _ name c nofun nofun)
  | str n => exact prim _ .string _ (by decide +kernel) (.str n) (fun name c hc => by rw [remarks]; exact out_property_string p name n c hc)
  | bin n => exact prim _ .binary _ (by decide +kernel) (.bin n) (fun name c hc => by rw [remarks]; exact still _ name c nofun nofun)
  | null c hc =>
    intro i fuel name hi hf
    refine utters_of (hok (.null c hc) i fuel name hi hf) ?_
    intro cur hcur
    cases fuel with
    | zero => have := height_pos (valTree .null); omega
    | succ fuel =>
      obtain ⟨o, ho, hb⟩ := find _ hc i hi
      rw [tdump_succ ho, remarks]
      simp only [dumpWith, hb.1]
      unfold autoNext
      have : isNull cur = (.ok true, cur) := by
        simp only [isNull, look, type_of_cur hcur, valTree, Node.val, Atom.type, decide_true]
      simp only
      rw [out_quiet this]
      rfl
  | enum r cs k o hr hk hm' =>
    intro i fuel name hi hf
    refine utters_of (hok (.enum r cs k o hr hk hm') i fuel name hi hf) ?_
    intro cur hcur
    cases fuel with
    | zero => have := height_pos (valTree (.enum r.descriptor k o)); omega
    | succ fuel =>
      obtain ⟨ob, ho, hb⟩ := find _ hr i hi
      simp only [Built, hk] at hb
      rw [tdump_succ ho, remarks]
      simp only [dumpWith, hb]
      unfold autoNext
      simp only
      rw [out_quiet (attestDescribed_ok (d := r.descriptor) (by rw [hcur, valTree])), out_map]
      exact out_enumValue r.descriptor k o cur hcur
  | list r l es hr hk he ih =>
    intro i fuel name hi hf
    refine utters_of (hok (.list r l es hr hk he) i fuel name hi hf) ?_
    intro cur hcur
    cases fuel with
    | zero => have := height_pos (valTree (.list r.descriptor es)); omega
    | succ fuel =>
      obtain ⟨ob, ho, hb⟩ := find _ hr i hi
      have hb : (ob.kind = .list ∨ ob.kind = .array) ∧ ∃ j, ob.subs = [j] ∧ ReaderFor F l j := by
        rcases hk with hk | hk <;> simp only [Built, hk] at hb
        · exact ⟨.inl hb.1, hb.2⟩
        · exact ⟨.inr hb.1, hb.2⟩
      obtain ⟨hkind, j, hj, hj'⟩ := hb
      rw [valTree] at hf hcur
      have hl := out_listDump (F := F) (s := s) (rec := dump p cu lf F s fuel) (i := j) (L := remarks (voices p) none) (hd _ hr)
        (fun hne => by
          cases es with
          | nil => exact absurd rfl hne
          | cons e es => exact obj (he e List.mem_cons_self) hj')
        (fun e hme => ih e hme j fuel none hj' (by
          have := height_described (d := r.descriptor) (a := .list) (mem_valTrees hme); omega)) cur hcur
      rw [tdump_succ ho, remarks, remarksAll_eq, ← hl, ← hj]
      unfold dumpWith
      rcases hkind with hkind | hkind <;> simp only [hkind, autoNext] <;> rw [out_map]
  | map r k v es hr hk he he' ih ih' =>
    have hlf := hm r k v hr hk
    subst hlf
    intro i fuel name hi hf
    refine utters_of (hok (.map r k v es hr hk he he') i fuel name hi hf) ?_
    intro cur hcur
    cases fuel with
    | zero => have := height_pos (valTree (.map r.descriptor es)); omega
    | succ fuel =>
      obtain ⟨ob, ho, hb⟩ := find _ hr i hi
      simp only [Built, hk] at hb
      obtain ⟨hkind, j, j', hj, hjk, hjv⟩ := hb
      rw [valTree] at hf hcur
      have hl := out_mapDump (p := p) (F := F) (s := s) (rec := dump p cu true F s fuel) (i := j) (j := j') (L := remarks (voices p) none)
        (hd _ hr)
        (fun hne => by
          cases es with
          | nil => exact absurd rfl hne
          | cons e es => exact ⟨obj (he e List.mem_cons_self) hjk, obj (he' e List.mem_cons_self) hjv⟩)
        (fun e hme => ih e hme j fuel none hjk (by
          have := height_described (d := r.descriptor) (a := .map) (mem_pairTrees hme).1; omega))
        (fun e hme => ih' e hme j' fuel none hjv (by
          have := height_described (d := r.descriptor) (a := .map) (mem_pairTrees hme).2; omega)) cur hcur
      have hc : remark (p .mapReader) (natStr 44) ("  ".toList ++ natStr (2 * es.length)) = countRemark (voices p) es.length := by
        unfold countRemark
        rw [show natStr 44 = "44".toList by decide, natStr_eq]
        rfl
      rw [hc, ← hj] at hl
      rw [tdump_succ ho, remarks, remarksEntries_eq, ← hl]
      simp only [dumpWith, hkind]
      cases name with
      | none =>
        simp only
        rw [out_dbg, show natStr 94 = "94".toList by decide]
        unfold autoNext
        simp only
        rw [out_map]
        rfl
      | some f =>
        simp only
        rw [out_dbg, show natStr 78 = "78".toList by decide]
        unfold autoNext
        simp only
        rw [out_map]
        rfl
  | obj c vs hc hl hv hf' ih =>
    intro i fuel name hi hf
    refine utters_of (hok (.obj c vs hc hl hv hf') i fuel name hi hf) ?_
    intro cur hcur
    cases fuel with
    | zero => have := height_pos (valTree (.obj c.descriptor (c.fields.map Field.name) vs)); omega
    | succ fuel =>
      obtain ⟨ob, ho, hb⟩ := find _ hc i hi
      obtain ⟨hkind, hsl, hsub⟩ := hb
      rw [valTree] at hf hcur
      have ho' := out_compositeDump (p := p) (F := F) (s := s) (rec := dump p cu lf F s fuel) (subs := ob.subs)
        (L := fun n w => remarks (voices p) (some n) w) (hd _ hc) hsl hl (by
        intro f j w hmem
        have hfj : (f, j) ∈ c.fields.zip ob.subs := (List.of_mem_zip hmem).1
        have hw : w ∈ vs := (List.of_mem_zip hmem).2
        obtain ⟨t, ht, hj⟩ := hsub f j hfj
        have hfw : (f, w) ∈ c.fields.zip vs := by
          obtain ⟨n, hn⟩ := List.mem_iff_getElem?.mp hmem
          rw [List.getElem?_zip_eq_some] at hn
          obtain ⟨hn1, hn2⟩ := hn
          rw [List.getElem?_zip_eq_some] at hn1
          exact List.mem_iff_getElem?.mpr ⟨n, by rw [List.getElem?_zip_eq_some]; exact ⟨hn1.1, hn2⟩⟩
        refine ⟨obj (hv f w t hfw ht) hj, ih f w t hfw ht j fuel (some f.name) hj ?_⟩
        have := height_described (d := c.descriptor) (a := .list) (mem_valTrees hw); omega) cur hcur
      have hnames : (c.fields.zip ob.subs).map (fun x => x.1.name) = c.fields.map Field.name := by
        have : (c.fields.zip ob.subs).map (fun x => x.1.name) = ((c.fields.zip ob.subs).map Prod.fst).map Field.name := by
          rw [List.map_map]; rfl
        rw [this, List.map_fst_zip (by omega)]
      rw [← remarksNamed_eq, hnames, show natStr 46 = "46".toList by decide, show natStr 299 = "299".toList by decide] at ho'
      have he : remarks (voices p) name (.obj c.descriptor (c.fields.map Field.name) vs)
          = (compositeDump p F s (dump p cu lf F s fuel) ob.subs cur).2 := by
        rw [ho', remarks]; rfl
      rw [tdump_succ ho, he]
      simp only [dumpWith, hkind]
      unfold autoNext
      have : isNull cur = (.ok false, cur) := by
        simp only [isNull, look, type_of_cur hcur, described, Node.val, Atom.type]; rfl
      simp only
      rw [out_quiet this]
      simp only [Bool.false_eq_true, if_false]
      rw [out_map]

end TProg
end Corda
