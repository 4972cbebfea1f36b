import Verif.Model.Readers
import Verif.Spec.Readers
import Verif.Lemmas.RoundTrip
import Verif.Lemmas.Fuel
import Verif.Lemmas.Safe

/-
What a reader object shows for a value of its type.
-/

namespace Corda
open Prog Spec

/-! ### Text -/

theorem natStr_eq (n : Nat) : natStr n = decimalNat n := by
  unfold natStr
  induction n using Nat.strongRecOn with
  | _ n ih =>
    rw [decimalNat]
    by_cases h : n < 10
    · rw [if_pos h, Nat.toDigits_of_lt_base h]
      have : n = 0 ∨ n = 1 ∨ n = 2 ∨ n = 3 ∨ n = 4 ∨ n = 5 ∨ n = 6 ∨ n = 7 ∨ n = 8 ∨ n = 9 := by omega
      rcases this with h | h | h | h | h | h | h | h | h | h <;> subst h <;> decide
    · rw [if_neg h, Nat.toDigits_of_base_le (by omega) (by omega), ih (n / 10) (by omega)]
      have : n % 10 < 10 := Nat.mod_lt _ (by omega)
      generalize n % 10 = m at this
      have : m = 0 ∨ m = 1 ∨ m = 2 ∨ m = 3 ∨ m = 4 ∨ m = 5 ∨ m = 6 ∨ m = 7 ∨ m = 8 ∨ m = 9 := by omega
      congr 1
      rcases this with h | h | h | h | h | h | h | h | h | h <;> subst h <;> decide

theorem intStr_eq (n : Int) : intStr n = decimal n := by
  unfold intStr decimal
  cases n with
  | ofNat k => simp [natStr_eq]
  | negSucc k => simp [natStr_eq]

theorem dumpRest_eq (vs : List Val) : dumpRest vs = (vs.map (fun v => elemSep ++ v.dump)).flatten := by
  induction vs with
  | nil => rw [dumpRest]; rfl
  | cons v vs ih => rw [dumpRest, ih]; simp

theorem commas_cons (a : Str) (l : List Str) : commas (a :: l) = a ++ (l.map (fun s => elemSep ++ s)).flatten := by
  unfold commas
  induction l generalizing a with
  | nil => simp [List.intercalate]
  | cons b l ih =>
    have := ih b
    simp only [List.intercalate, List.intersperse] at this ⊢
    simp only [List.flatten_cons, this, List.map_cons]
    rfl

/-- The loop over a range of values puts a comma and a blank between them. -/
theorem dumpRange_eq (vs : List Val) : dumpRange vs = commas (vs.map Val.dump) := by
  cases vs with
  | nil => rw [dumpRange]; rfl
  | cons v vs =>
    rw [dumpRange, List.map_cons, commas_cons, dumpRest_eq, List.map_map]; rfl

/-! ### Cursor steps -/

/-- Going into a node and coming back. -/
theorem scope_back {α : Type} {ctor : Cursor → Cursor} {p : Prog α} {c c1 c' : Cursor} {r : Res α}
    (hs : c.cur.isSome = true) (hc : ctor c = c1) (h : p c1 = (r, c')) (hk : Keeps c.enter c') :
    scope ctor p c = (r, c) := by
  unfold scope
  rw [hc, h]
  simp only [Cursor.exit_of_keeps hs hk]

/-- Reading the same way over and over. -/
theorem times_reads {p : Prog Val} {ns : List Node} {vals : List Val} (h : Each (Reads p) ns vals) :
    ∀ c, At ns [] c → ∃ c', times p ns.length c = (.ok vals, c') ∧ Keeps c c' := by
  induction h with
  | nil => intro c _; exact ⟨c, rfl, Keeps.refl c⟩
  | cons h1 h2 ih =>
    rename_i n v ns vs
    intro c hc
    obtain ⟨c', h3, h4⟩ := ih c.next.2 hc.next
    refine ⟨c', ?_, (Cursor.next_keeps c).trans h4⟩
    rw [List.length_cons, times, bind_of_ok (h1 c hc.1), bind_of_ok h3]
    rfl

/-- The cursor on the first child, or before it if there is none. -/
theorem at_start (ks : List Node) (u : List (List Node × Atom × List Node)) :
    At ks [] (⟨[], none, ks, u⟩ : Cursor).next.2 := by
  cases ks with
  | nil => trivial
  | cons a as => exact ⟨rfl, (List.append_nil _).symm⟩

/-! ### Readers -/

/-- The reader registered for a type name. -/
def ReaderFor (F : Factory) (t : Str) (i : Nat) : Prop := F.byType.lookup t = some (some i)

/-- The object is the right reader for the type. -/
def Built (F : Factory) (t : TypeNotation) (o : Ser) : Prop :=
  match t with
  | .comp c => o.kind = .composite ∧ o.subs.length = c.fields.length ∧
      ∀ f j, (f, j) ∈ c.fields.zip o.subs → ∃ t, f.resolvedType = .ok t ∧ ReaderFor F t j
  | .restr r =>
    match r.kind with
    | .list l => o.kind = .list ∧ ∃ j, o.subs = [j] ∧ ReaderFor F l j
    | .array l => o.kind = .array ∧ ∃ j, o.subs = [j] ∧ ReaderFor F l j
    | .map k v => o.kind = .map ∧ ∃ j j', o.subs = [j, j'] ∧ ReaderFor F k j ∧ ReaderFor F v j'
    | .enum cs => o.kind = .enum cs

/-- The factory has the right reader for every type of the schema and for the primitive types it knows. -/
structure Ready (F : Factory) (ts : List TypeNotation) : Prop where
  types : ∀ t ∈ ts, ∃ i o, ReaderFor F t.name i ∧ F.objs[i]? = some o ∧ Built F t o
  prims : ∀ k p i, makePropertyReader k = .ok p → ReaderFor F k i → ∃ o, F.objs[i]? = some o ∧ o.kind = .prim p

theorem lookup_mem {κ α : Type} [BEq κ] [LawfulBEq κ] {m : List (κ × α)} {k : κ} {v : α} (h : m.lookup k = some v) :
    (k, v) ∈ m := by
  induction m with
  | nil => simp at h
  | cons e m ih =>
    obtain ⟨k', v'⟩ := e
    simp only [List.lookup_cons] at h
    by_cases hk : k == k'
    · simp only [hk, Option.some.injEq] at h
      rw [eq_of_beq hk, h]; exact List.mem_cons_self
    · simp only [hk] at h
      exact List.mem_cons_of_mem _ (ih h)

theorem ReaderFor.alive {F : Factory} {t : Str} {i : Nat} (h : ReaderFor F t i) : F.alive i = true := by
  have := lookup_mem h
  simp only [Factory.alive, Bool.or_eq_true, List.any_eq_true]
  exact .inl ⟨_, this, by simp⟩

theorem ReaderFor.lock {F : Factory} {t : Str} {i : Nat} {o : Ser} (h : ReaderFor F t i) (ho : F.objs[i]? = some o) :
    F.lock i = some o := by simp [Factory.lock, h.alive, ho]

/-- The program shows that text for the node and steps on. -/
def Shows (p : Prog Val) (n : Node) (s : Str) : Prop := ∃ v, Reads p n v ∧ v.dump = s

theorem text_dump (name : Option Str) (s : Str) : (text name s).dump = labelled name s := by
  cases name <;> simp [text, labelled, Val.dump, pairSep, colon]

/-- A property reader shows its value. -/
theorem shows_prim {p : PrimReader} {n : Node} {s : Str} (h : Reads (propertyText p) n s) (name : Option Str) :
    Shows (do let t ← propertyText p; pure (text name t)) n (labelled name s) := by
  refine ⟨text name s, fun c hc => ?_, text_dump name s⟩
  rw [bind_of_ok (h c hc)]; rfl

theorem reads_property {v : PVal} {p : PrimReader}
    (h : (∃ n, v = .int n ∧ p = .int) ∨ (∃ n, v = .long n ∧ p = .long) ∨ (∃ n, v = .double n ∧ p = .double) ∨
      (∃ n, v = .bool n ∧ p = .boolean) ∨ (∃ n, v = .str n ∧ p = .string) ∨ (∃ n, v = .bin n ∧ p = .binary)) :
    Reads (propertyText p) (valTree v) (shown v) := by
  intro c hc
  have hv : ∀ a ks, valTree v = .mk a ks → c.val = some a := by
    intro a ks h; simp [Cursor.val, hc, h, Node.val]
  rcases h with ⟨n, rfl, rfl⟩ | ⟨n, rfl, rfl⟩ | ⟨n, rfl, rfl⟩ | ⟨n, rfl, rfl⟩ | ⟨n, rfl, rfl⟩ | ⟨n, rfl, rfl⟩
  · have := hv _ _ (by rw [valTree])
    have : readInt32 c = (.ok n, c.next.2) := by simp only [readInt32, autoNext, look, getInt, this]
    rw [propertyText, bind_of_ok this, shown, intStr_eq, pure_def]
  · have := hv _ _ (by rw [valTree])
    have : readInt64 c = (.ok n, c.next.2) := by simp only [readInt64, autoNext, look, getLong, this]
    rw [propertyText, bind_of_ok this, shown, intStr_eq, pure_def]
  · have := hv _ _ (by rw [valTree])
    have : readDouble c = (.ok n, c.next.2) := by simp only [readDouble, autoNext, look, getDouble, this]
    rw [propertyText, bind_of_ok this, shown, pure_def]
  · have := hv _ _ (by rw [valTree])
    have : readBool c = (.ok n, c.next.2) := by simp only [readBool, autoNext, look, getBool, this]
    rw [propertyText, bind_of_ok this, shown, pure_def]
    cases n <;> rfl
  · have := hv _ _ (by rw [valTree])
    have : Prog.readString false c = (.ok n, c.next.2) := by simp only [Prog.readString, autoNext, this]
    rw [propertyText, bind_of_ok this, shown, pure_def]
    rfl
  · have := hv _ _ (by rw [valTree])
    have : readBinary c = (.ok n, c.next.2) := by simp only [readBinary, autoNext, look, getBinary, this]
    rw [propertyText, bind_of_ok this, shown, natStr_eq, pure_def]
    rfl

/-- The position on the descriptor of a described value. -/
def inside (c : Cursor) (d : Str) (b : Node) : Cursor :=
  ⟨[], some (.mk (.symbol d) []), [b], (c.prev, .described, c.rest) :: c.up⟩

/-- The position on the described thing itself. -/
def inside2 (c : Cursor) (d : Str) (b : Node) : Cursor :=
  ⟨[.mk (.symbol d) []], some b, [], (c.prev, .described, c.rest) :: c.up⟩

theorem enter_described {α : Type} {p : Prog α} {c c' : Cursor} {r : Res α} {d : Str} {b : Node}
    (hc : c.cur = some (described d b)) (h : p (inside c d b) = (r, c')) (hk : Keeps (inside c d b) c') :
    autoEnter p false c = (r, c) := by
  obtain ⟨pr, cu, re, up⟩ := c
  simp only at hc
  subst hc
  unfold autoEnter
  refine scope_back (c1 := inside ⟨pr, some (described d b), re, up⟩ d b) rfl rfl h ?_
  exact Keeps.trans (a := Cursor.enter ⟨pr, some (described d b), re, up⟩) (b := inside _ d b) ⟨rfl, rfl, fun _ => rfl⟩ hk

theorem inside_next (c : Cursor) (d : Str) (b : Node) : (inside c d b).next.2 = inside2 c d b := rfl

/-- Reading the descriptor as a string. -/
theorem inside_readString (c : Cursor) (d : Str) (b : Node) :
    Prog.readString false (inside c d b) = (.ok d, inside2 c d b) := rfl

theorem inside_getSymbol (c : Cursor) (d : Str) (b : Node) : getSymbol (inside c d b) = (.ok d, inside c d b) := rfl

theorem keeps_inside2 (c : Cursor) (d : Str) (b : Node) : Keeps (inside c d b) (inside2 c d b) := ⟨rfl, rfl, fun _ => rfl⟩

theorem attestDescribed_ok {c : Cursor} {d : Str} {b : Node} (hc : c.cur = some (described d b)) :
    attestDescribed c = (.ok (), c) := attest_ok (by rw [type_of_cur hc]; rfl)

theorem lookup_of_desc {s : Schema} {d : Str} {t : TypeNotation} (h : s.fromDescriptor d = .ok t) (c : Cursor) :
    Prog.lift (s.fromDescriptor d) c = (.ok t, c) := by rw [h]; rfl

/-- A list reader shows the elements. -/
theorem reads_listDump {F : Factory} {s : Schema} {rec : Nat → Option Str → Prog Val} {i : Nat} {o : Ser} {d : Str}
    {t : TypeNotation} {ns : List Node} {vals : List Val} (hd : s.fromDescriptor d = .ok t) (ho : F.lock i = some o)
    (h : Each (Reads (rec i none)) ns vals) (c : Cursor) (hc : c.cur = some (described d (.mk .list ns))) :
    listDump F s rec [i] c = (.ok vals, c) := by
  unfold listDump
  rw [bind_of_ok (attestDescribed_ok hc)]
  have hu : useReader F rec i = rec i none := by simp [useReader, ho]
  obtain ⟨c', h1, h2⟩ := times_reads h _ (at_start ns (([Node.mk (.symbol d) []], .list, []) ::
    (c.prev, .described, c.rest) :: c.up))
  refine enter_described hc (c' := inside2 c d (.mk .list ns)) ?_ (keeps_inside2 _ _ _)
  rw [bind_of_ok (inside_readString c d _), bind_of_ok (lookup_of_desc hd _)]
  unfold autoListEnter
  refine scope_back (c1 := (⟨[], none, ns, ([Node.mk (.symbol d) []], .list, []) ::
    (c.prev, .described, c.rest) :: c.up⟩ : Cursor).next.2) rfl rfl ?_ ((Cursor.next_keeps _).trans h2)
  simp only [hu]
  exact h1

/-- Reading keys and values by turns. -/
theorem times_reads_map {k v : Prog Val} {es : List PEntry} {vals : List Val}
    (h : Each (fun e w => ∃ a b, Reads k (valTree e.key) a ∧ Reads v (valTree e.value) b ∧ w = .valuePair a b) es vals) :
    ∀ c, At (pairTrees es) [] c →
      ∃ c', times (mapEntry true k v) es.length c = (.ok vals, c') ∧ Keeps c c' := by
  induction h with
  | nil => intro c _; exact ⟨c, rfl, Keeps.refl c⟩
  | cons h1 h2 ih =>
    rename_i e w es vs
    intro c hc
    obtain ⟨a, b, ha, hb, rfl⟩ := h1
    cases e with
    | mk ek ev =>
      rw [pairTrees] at hc
      obtain ⟨c', h3, h4⟩ := ih c.next.2.next.2 hc.next.next
      refine ⟨c', ?_, ((Cursor.next_keeps c).trans (Cursor.next_keeps _)).trans h4⟩
      have : mapEntry true k v c = (.ok (.valuePair a b), c.next.2.next.2) := by
        unfold mapEntry
        rw [if_pos rfl, bind_of_ok (ha c hc.1), bind_of_ok (hb _ hc.next.1)]; rfl
      rw [List.length_cons, times, bind_of_ok this, bind_of_ok h3]
      rfl

theorem pairTrees_length (es : List PEntry) : (pairTrees es).length = 2 * es.length := by
  induction es with
  | nil => rw [pairTrees]; rfl
  | cons e es ih => cases e; rw [pairTrees]; simp [ih]; omega

theorem reads_mapDump {F : Factory} {s : Schema} {rec : Nat → Option Str → Prog Val} {i j : Nat} {o o' : Ser} {d : Str}
    {t : TypeNotation} {es : List PEntry} {vals : List Val} (hd : s.fromDescriptor d = .ok t) (ho : F.lock i = some o)
    (ho' : F.lock j = some o')
    (h : Each (fun e w => ∃ a b, Reads (rec i none) (valTree e.key) a ∧ Reads (rec j none) (valTree e.value) b ∧
      w = .valuePair a b) es vals) (c : Cursor) (hc : c.cur = some (described d (.mk .map (pairTrees es)))) :
    mapDump true F s rec [i, j] c = (.ok vals, c) := by
  unfold mapDump
  rw [bind_of_ok (attestDescribed_ok hc)]
  have hu : useReader F rec i = rec i none := by simp [useReader, ho]
  have hu' : useReader F rec j = rec j none := by simp [useReader, ho']
  obtain ⟨c', h1, h2⟩ := times_reads_map h _ (at_start (pairTrees es) (([Node.mk (.symbol d) []], .map, []) ::
    (c.prev, .described, c.rest) :: c.up))
  refine enter_described hc (c' := inside2 c d (.mk .map (pairTrees es))) ?_ (keeps_inside2 _ _ _)
  rw [bind_of_ok (inside_readString c d _), bind_of_ok (lookup_of_desc hd _)]
  unfold autoMapEnter
  refine scope_back (c1 := (⟨[], none, pairTrees es, ([Node.mk (.symbol d) []], .map, []) ::
    (c.prev, .described, c.rest) :: c.up⟩ : Cursor).next.2) rfl rfl ?_ ((Cursor.next_keeps _).trans h2)
  have hn : (inside2 c d (.mk .map (pairTrees es))).getMap = 2 * es.length := pairTrees_length es
  simp only [hu, hu', hn, show (2 * es.length + 1) / 2 = es.length by omega]
  exact h1

/-- One field after the other. -/
theorem dumpFields_reads {F : Factory} {rec : Nat → Option Str → Prog Val} {fs : List (Field × Nat)} {ns : List Node}
    {vals : List Val}
    (h : Each (fun (x : (Field × Nat) × Node) w => (∃ o, F.lock x.1.2 = some o) ∧ Reads (rec x.1.2 (some x.1.1.name)) x.2 w)
      (fs.zip ns) vals) (hl : fs.length = ns.length) :
    ∀ c, At ns [] c → ∃ c', dumpFields F rec fs c = (.ok vals, c') ∧ Keeps c c' := by
  induction fs generalizing ns vals with
  | nil =>
    cases ns with
    | cons => simp at hl
    | nil => cases h; intro c _; exact ⟨c, rfl, Keeps.refl c⟩
  | cons f fs ih =>
    cases ns with
    | nil => simp at hl
    | cons n ns =>
      obtain ⟨f, i⟩ := f
      rw [List.zip_cons_cons] at h
      cases h with
      | cons h1 h2 =>
        rename_i v vs
        intro c hc
        obtain ⟨⟨o, ho⟩, hr⟩ := h1
        obtain ⟨c', h3, h4⟩ := ih h2 (by simpa using hl) c.next.2 hc.next
        refine ⟨c', ?_, (Cursor.next_keeps c).trans h4⟩
        simp only at ho hr
        rw [dumpFields]
        simp only [ho]
        rw [bind_of_ok (hr c hc.1), bind_of_ok h3]
        rfl

theorem reads_compositeDump {F : Factory} {s : Schema} {rec : Nat → Option Str → Prog Val} {subs : List Nat} {d : Str}
    {t : Composite} {ns : List Node} {vals : List Val} (hd : s.fromDescriptor d = .ok (.comp t))
    (hs : subs.length = t.fields.length) (hn : ns.length = t.fields.length)
    (h : Each (fun (x : (Field × Nat) × Node) w => (∃ o, F.lock x.1.2 = some o) ∧ Reads (rec x.1.2 (some x.1.1.name)) x.2 w)
      ((t.fields.zip subs).zip ns) vals) (c : Cursor) (hc : c.cur = some (described d (.mk .list ns))) :
    compositeDump F s rec subs c = (.ok vals, c) := by
  unfold compositeDump
  rw [bind_of_ok (attestDescribed_ok hc)]
  obtain ⟨c', h1, h2⟩ := dumpFields_reads h (by simp [hs, hn]) _ (at_start ns (([Node.mk (.symbol d) []], .list, []) ::
    (c.prev, .described, c.rest) :: c.up))
  refine enter_described hc (c' := inside2 c d (.mk .list ns)) ?_ (keeps_inside2 _ _ _)
  rw [bind_of_ok (inside_getSymbol c d _), bind_of_ok (lookup_of_desc hd _)]
  simp only [hs, if_true]
  rw [bind_of_ok (show Prog.next (inside c d (.mk .list ns)) = (.ok true, inside2 c d (.mk .list ns)) from rfl),
    bind_of_ok (show attestList (inside2 c d (.mk .list ns)) = (.ok (), inside2 c d (.mk .list ns)) from rfl)]
  unfold autoEnter
  exact scope_back (c1 := (⟨[], none, ns, ([Node.mk (.symbol d) []], .list, []) ::
    (c.prev, .described, c.rest) :: c.up⟩ : Cursor).next.2) rfl rfl h1 ((Cursor.next_keeps _).trans h2)

theorem reads_enumValue (d k : Str) (o : Int) (c : Cursor) (hc : c.cur = some (valTree (.enum d k o))) :
    enumValue c = (.ok k, c) := by
  rw [valTree] at hc
  unfold enumValue
  rw [bind_of_ok (attestDescribed_ok hc)]
  refine enter_described hc (c' := inside2 c d _) ?_ (keeps_inside2 _ _ _)
  rw [bind_of_ok (show look Cursor.type (inside c d _) = (.ok .symbol, _) from rfl),
    bind_of_ok (show look getUlong (inside c d _) = (.ok 0, _) from rfl), if_neg (by simp),
    bind_of_ok (inside_readString c d _)]
  unfold autoListEnter
  exact scope_back rfl rfl rfl ⟨rfl, rfl, fun _ => rfl⟩

/-! ### The main lemma -/

theorem each_shown {p : Prog Val} {es : List PVal} (h : ∀ e ∈ es, Shows p (valTree e) (shown e)) :
    ∃ vals, Each (Reads p) (valTrees es) vals ∧ vals.map Val.dump = shownAll es := by
  induction es with
  | nil => exact ⟨[], by rw [valTrees]; exact .nil, by rw [shownAll]; rfl⟩
  | cons e es ih =>
    obtain ⟨vals, h1, h2⟩ := ih (fun e he => h e (List.mem_cons_of_mem _ he))
    obtain ⟨v, h3, h4⟩ := h e List.mem_cons_self
    exact ⟨v :: vals, by rw [valTrees]; exact .cons h3 h1, by rw [shownAll, List.map_cons, h4, h2]⟩

theorem each_shown_entries {p q : Prog Val} {es : List PEntry} (h : ∀ e ∈ es, Shows p (valTree e.key) (shown e.key))
    (h' : ∀ e ∈ es, Shows q (valTree e.value) (shown e.value)) :
    ∃ vals, Each (fun e w => ∃ a b, Reads p (valTree e.key) a ∧ Reads q (valTree e.value) b ∧ w = .valuePair a b) es vals ∧
      vals.map Val.dump = shownEntries es := by
  induction es with
  | nil => exact ⟨[], .nil, by rw [shownEntries]; rfl⟩
  | cons e es ih =>
    obtain ⟨vals, h1, h2⟩ := ih (fun e he => h e (List.mem_cons_of_mem _ he)) (fun e he => h' e (List.mem_cons_of_mem _ he))
    obtain ⟨a, h3, h4⟩ := h e List.mem_cons_self
    obtain ⟨b, h5, h6⟩ := h' e List.mem_cons_self
    refine ⟨.valuePair a b :: vals, .cons ⟨a, b, h3, h5, rfl⟩ h1, ?_⟩
    cases e with
    | mk k v => rw [shownEntries, List.map_cons, h2, Val.dump, h4, h6]; rfl

theorem each_shown_fields {F : Factory} {rec : Nat → Option Str → Prog Val} {fs : List (Field × Nat)} {vs : List PVal}
    (hl : fs.length = vs.length)
    (h : ∀ f j v, ((f, j), v) ∈ fs.zip vs → (∃ o, F.lock j = some o) ∧
      Shows (rec j (some f.name)) (valTree v) (labelled (some f.name) (shown v))) :
    ∃ vals, Each (fun (x : (Field × Nat) × Node) w => (∃ o, F.lock x.1.2 = some o) ∧
        Reads (rec x.1.2 (some x.1.1.name)) x.2 w) (fs.zip (valTrees vs)) vals ∧
      vals.map Val.dump = shownNamed (fs.map (fun x => x.1.name)) vs := by
  induction fs generalizing vs with
  | nil =>
    cases vs with
    | cons => simp at hl
    | nil => exact ⟨[], by rw [valTrees]; exact .nil, by rw [List.map_nil, List.map_nil, shownNamed]; intros; contradiction⟩
  | cons f fs ih =>
    cases vs with
    | nil => simp at hl
    | cons v vs =>
      obtain ⟨f, j⟩ := f
      obtain ⟨vals, h1, h2⟩ := ih (by simpa using hl) (fun f j v hm => h f j v (by
        rw [List.zip_cons_cons]; exact List.mem_cons_of_mem _ hm))
      obtain ⟨h3, w, h4, h5⟩ := h f j v (by rw [List.zip_cons_cons]; exact List.mem_cons_self)
      refine ⟨w :: vals, by rw [valTrees, List.zip_cons_cons]; exact .cons ⟨h3, h4⟩ h1, ?_⟩
      rw [List.map_cons, List.map_cons, shownNamed, h2, h5]
      rfl

theorem valTrees_length (vs : List PVal) : (valTrees vs).length = vs.length := by
  induction vs with
  | nil => rw [valTrees]; rfl
  | cons v vs ih => rw [valTrees]; simp [ih]

theorem mem_valTrees {v : PVal} {vs : List PVal} (h : v ∈ vs) : valTree v ∈ valTrees vs := by
  induction vs with
  | nil => simp at h
  | cons w vs ih =>
    rw [valTrees]
    rcases List.mem_cons.mp h with rfl | h
    · exact List.mem_cons_self
    · exact List.mem_cons_of_mem _ (ih h)

theorem mem_pairTrees {e : PEntry} {es : List PEntry} (h : e ∈ es) :
    valTree e.key ∈ pairTrees es ∧ valTree e.value ∈ pairTrees es := by
  induction es with
  | nil => simp at h
  | cons w es ih =>
    cases w with
    | mk a b =>
      rw [pairTrees]
      rcases List.mem_cons.mp h with rfl | h
      · simp [PEntry.key, PEntry.value]
      · exact ⟨List.mem_cons_of_mem _ (List.mem_cons_of_mem _ (ih h).1), List.mem_cons_of_mem _ (List.mem_cons_of_mem _ (ih h).2)⟩

theorem height_described {d : Str} {a : Atom} {ks : List Node} {k : Node} (hk : k ∈ ks) :
    k.height + 2 ≤ (described d (.mk a ks)).height := by
  have h1 := height_kids (v := a) hk
  have h2 := height_kids (v := .described) (ks := [.mk (.symbol d) [], .mk a ks]) (k := .mk a ks) (by simp)
  unfold described
  omega

theorem height_pos (n : Node) : 1 ≤ n.height := by
  cases n; simp [Node.height]

theorem pairList_dump (name : Option Str) (vs : List Val) :
    (match name with | some n => Val.pairList n vs | none => .singleList vs).dump =
      labelled name (brackets (vs.map Val.dump)) := by
  cases name with
  | none =>
    simp only [Val.dump, dumpRange_eq, labelled, brackets, listOpen, listClose]
  | some n =>
    simp only [Val.dump, dumpRange_eq, labelled, brackets, listClose, pairListOpen, colon]
    simp

theorem pairVec_dump (name : Option Str) (vs : List Val) :
    (match name with | some n => Val.pairVec n vs | none => .singleVec vs).dump =
      labelled name (braces (vs.map Val.dump)) := by
  cases name with
  | none =>
    simp only [Val.dump, dumpRange_eq, labelled, braces, mapOpen, mapClose]
  | some n =>
    simp only [Val.dump, dumpRange_eq, labelled, braces, mapClose, pairMapOpen, colon]
    simp

theorem nullText_eq : nullText = absent := by decide +kernel
theorem nullPairText_eq : nullPairText = " : ".toList ++ absent := by decide +kernel

theorem null_dump (name : Option Str) :
    (match name with | some n => Val.nullPair n | none => .nullSingle).dump = labelled name absent := by
  cases name with
  | none => simp only [Val.dump, labelled, nullText_eq]
  | some n =>
    simp only [Val.dump, labelled, nullPairText_eq, colon, List.append_assoc]

theorem dump_succ {cu : Customs} {lf : Bool} {F : Factory} {s : Schema} {fuel i : Nat} {o : Ser} (ho : F.objs[i]? = some o)
    (name : Option Str) :
    dump cu lf F s (fuel + 1) i name = dumpWith cu lf F s (dump cu lf F s fuel) o name := by
  rw [dump, ho]

/-- **The reader of a type shows the values of that type.** -/
theorem dump_shows {cu : Customs} {lf : Bool} {F : Factory} {s : Schema} {ts : List TypeNotation} (hF : Ready F ts)
    (hd : ∀ t ∈ ts, s.fromDescriptor t.descriptor = .ok t)
    (hm : ∀ r k v, .restr r ∈ ts → r.kind = .map k v → lf = true) {t : Str} {v : PVal} (h : Typed ts t v) :
    ∀ i fuel name, ReaderFor F t i → (valTree v).height ≤ fuel →
      Shows (dump cu lf F s fuel i name) (valTree v) (labelled name (shown v)) := by
  have prim : ∀ (k : Str) (p : PrimReader) (v : PVal), makePropertyReader k = .ok p →
      Reads (propertyText p) (valTree v) (shown v) →
      ∀ i fuel name, ReaderFor F k i → (valTree v).height ≤ fuel →
      Shows (dump cu lf F s fuel i name) (valTree v) (labelled name (shown v)) := by
    intro k p v hk hr i fuel name hi hf
    cases fuel with
    | zero => have := height_pos (valTree v); omega
    | succ fuel =>
      obtain ⟨o, ho, hp⟩ := hF.prims k p i hk hi
      have : dump cu lf F s (fuel + 1) i name = (do let t ← propertyText p; pure (text name t)) := by
        rw [dump_succ ho]; simp only [dumpWith, hp]
      rw [this]
      exact shows_prim hr name
  have find : ∀ t ∈ ts, ∀ i, ReaderFor F t.name i → ∃ o, F.objs[i]? = some o ∧ Built F t o := by
    intro t ht i hi
    obtain ⟨j, o, hj, ho, hb⟩ := hF.types t ht
    have : i = j := by
      have := hi.symm.trans hj; simpa using this
    subst this
    exact ⟨o, ho, hb⟩
  have obj : ∀ {t : Str} {v : PVal} {i : Nat}, Typed ts t v → ReaderFor F t i → ∃ o, F.lock i = some o := by
    intro t v i hv hi
    have pr : ∀ p, makePropertyReader t = .ok p → ∃ o, F.lock i = some o := by
      intro p hp
      obtain ⟨o, ho, -⟩ := hF.prims t p i hp hi
      exact ⟨o, hi.lock ho⟩
    have ty : ∀ u ∈ ts, u.name = t → ∃ o, F.lock i = some o := by
      intro u hu e
      subst e
      obtain ⟨o, ho, -⟩ := find u hu i hi
      exact ⟨o, hi.lock ho⟩
    cases hv with
    | int => exact pr .int (by decide +kernel)
    | long => exact pr .long (by decide +kernel)
    | double => exact pr .double (by decide +kernel)
    | bool => exact pr .boolean (by decide +kernel)
    | str => exact pr .string (by decide +kernel)
    | bin => exact pr .binary (by decide +kernel)
    | null c h => exact ty _ h rfl
    | enum r cs k o h => exact ty _ h rfl
    | list r l es h => exact ty _ h rfl
    | map r k v es h => exact ty _ h rfl
    | obj c vs h => exact ty _ h rfl
  induction h with
  | int n => exact prim _ .int _ (by decide +kernel) (reads_property (by simp))
  | long n => exact prim _ .long _ (by decide +kernel) (reads_property (by simp))
  | double n => exact prim _ .double _ (by decide +kernel) (reads_property (by simp))
  | bool n => exact prim _ .boolean _ (by decide +kernel) (reads_property (by simp))
  | str n => exact prim _ .string _ (by decide +kernel) (reads_property (by simp))
  | bin n => exact prim _ .binary _ (by decide +kernel) (reads_property (by simp))
  | null c hc =>
    intro i fuel name hi hf
    cases fuel with
    | zero => have := height_pos (valTree .null); omega
    | succ fuel =>
      obtain ⟨o, ho, hb⟩ := find _ hc i hi
      refine ⟨_, fun cur hcur => ?_, by rw [shown]; exact null_dump name⟩
      rw [dump_succ ho]
      simp only [dumpWith, hb.1]
      unfold autoNext
      have : isNull cur = (.ok true, cur) := by
        simp only [isNull, look, type_of_cur hcur, valTree, Node.val, Atom.type, decide_true]
      rw [bind_of_ok this]
      rfl
  | enum r cs k o hr hk hm =>
    intro i fuel name hi hf
    cases fuel with
    | zero => have := height_pos (valTree (.enum r.descriptor k o)); omega
    | succ fuel =>
      obtain ⟨ob, ho, hb⟩ := find _ hr i hi
      simp only [Built, hk] at hb
      refine ⟨text name k, fun cur hcur => ?_, by rw [shown]; exact text_dump name k⟩
      rw [dump_succ ho]
      simp only [dumpWith, hb]
      unfold autoNext
      rw [bind_of_ok (attestDescribed_ok (d := r.descriptor) (by rw [hcur, valTree])),
        bind_of_ok (reads_enumValue r.descriptor k o cur hcur)]
      rfl
  | list r l es hr hk he ih =>
    intro i fuel name hi hf
    cases fuel with
    | zero => have := height_pos (valTree (.list r.descriptor es)); omega
    | succ fuel =>
      obtain ⟨ob, ho, hb⟩ := find _ hr i hi
      have hb : (ob.kind = .list ∨ ob.kind = .array) ∧ ∃ j, ob.subs = [j] ∧ ReaderFor F l j := by
        rcases hk with hk | hk <;> simp only [Built, hk] at hb
        · exact ⟨.inl hb.1, hb.2⟩
        · exact ⟨.inr hb.1, hb.2⟩
      obtain ⟨hkind, j, hj, hj'⟩ := hb
      rw [valTree] at hf
      obtain ⟨vals, h1, h2⟩ := each_shown (p := dump cu lf F s fuel j none) (es := es) (fun e hme => ih e hme j fuel none hj' (by
        have := height_described (d := r.descriptor) (a := .list) (mem_valTrees hme); omega))
      refine ⟨_, fun cur hcur => ?_, by rw [shown, ← h2]; exact pairList_dump name vals⟩
      rw [valTree] at hcur
      have hl : listDump F s (dump cu lf F s fuel) ob.subs cur = (.ok vals, cur) := by
        rw [hj]
        cases es with
        | nil =>
          rw [valTrees] at hcur h1
          cases h1
          unfold listDump
          rw [bind_of_ok (attestDescribed_ok hcur)]
          refine enter_described hcur (c' := inside2 cur r.descriptor (.mk .list [])) ?_ (keeps_inside2 _ _ _)
          rw [bind_of_ok (inside_readString cur r.descriptor _), bind_of_ok (lookup_of_desc (d := r.descriptor) (hd _ hr) _)]
          rfl
        | cons e es =>
          obtain ⟨o', ho'⟩ := obj (he e List.mem_cons_self) hj'
          exact reads_listDump (hd _ hr) ho' h1 cur hcur
      rw [dump_succ ho]
      unfold dumpWith
      rcases hkind with hkind | hkind <;> simp only [hkind, autoNext] <;> rw [bind_of_ok hl] <;> rfl
  | map r k v es hr hk he he' ih ih' =>
    have hlf := hm r k v hr hk
    subst hlf
    intro i fuel name hi hf
    cases fuel with
    | zero => have := height_pos (valTree (.map r.descriptor es)); omega
    | succ fuel =>
      obtain ⟨ob, ho, hb⟩ := find _ hr i hi
      simp only [Built, hk] at hb
      obtain ⟨hkind, j, j', hj, hjk, hjv⟩ := hb
      rw [valTree] at hf
      obtain ⟨vals, h1, h2⟩ := each_shown_entries (p := dump cu true F s fuel j none) (q := dump cu true F s fuel j' none)
        (es := es)
        (fun e hme => ih e hme j fuel none hjk (by
          have := height_described (d := r.descriptor) (a := .map) (mem_pairTrees hme).1; omega))
        (fun e hme => ih' e hme j' fuel none hjv (by
          have := height_described (d := r.descriptor) (a := .map) (mem_pairTrees hme).2; omega))
      refine ⟨_, fun cur hcur => ?_, by rw [shown, ← h2]; exact pairVec_dump name vals⟩
      rw [valTree] at hcur
      have hl : mapDump true F s (dump cu true F s fuel) ob.subs cur = (.ok vals, cur) := by
        rw [hj]
        cases es with
        | nil =>
          rw [pairTrees] at hcur
          cases h1
          unfold mapDump
          rw [bind_of_ok (attestDescribed_ok hcur)]
          refine enter_described hcur (c' := inside2 cur r.descriptor (.mk .map [])) ?_ (keeps_inside2 _ _ _)
          rw [bind_of_ok (inside_readString cur r.descriptor _), bind_of_ok (lookup_of_desc (d := r.descriptor) (hd _ hr) _)]
          have h0 : (inside2 cur r.descriptor (.mk .map [])).getMap = 0 := rfl
          simp only [autoMapEnter, h0, Nat.zero_add, show 1 / 2 = 0 by decide]
          rfl
        | cons e es =>
          obtain ⟨o', ho'⟩ := obj (he e List.mem_cons_self) hjk
          obtain ⟨o'', ho''⟩ := obj (he' e List.mem_cons_self) hjv
          exact reads_mapDump (hd _ hr) ho' ho'' h1 cur hcur
      rw [dump_succ ho]
      simp only [dumpWith, hkind]
      unfold autoNext
      rw [bind_of_ok hl]; rfl
  | obj c vs hc hl hv hf' ih =>
    intro i fuel name hi hf
    cases fuel with
    | zero => have := height_pos (valTree (.obj c.descriptor (c.fields.map Field.name) vs)); omega
    | succ fuel =>
      obtain ⟨ob, ho, hb⟩ := find _ hc i hi
      obtain ⟨hkind, hsl, hsub⟩ := hb
      rw [valTree] at hf
      have hzl : (c.fields.zip ob.subs).length = vs.length := by simp [hsl, hl]
      obtain ⟨vals, h1, h2⟩ := each_shown_fields (F := F) (rec := dump cu lf F s fuel) hzl (by
        intro f j w hmem
        have hfj : (f, j) ∈ c.fields.zip ob.subs := (List.of_mem_zip hmem).1
        have hw : w ∈ vs := (List.of_mem_zip hmem).2
        obtain ⟨t, ht, hj⟩ := hsub f j hfj
        have hfw : (f, w) ∈ c.fields.zip vs := by
          obtain ⟨n, hn⟩ := List.mem_iff_getElem?.mp hmem
          rw [List.getElem?_zip_eq_some] at hn
          obtain ⟨hn1, hn2⟩ := hn
          rw [List.getElem?_zip_eq_some] at hn1
          exact List.mem_iff_getElem?.mpr ⟨n, by rw [List.getElem?_zip_eq_some]; exact ⟨hn1.1, hn2⟩⟩
        refine ⟨obj (hv f w t hfw ht) hj, ih f w t hfw ht j fuel (some f.name) hj ?_⟩
        have := height_described (d := c.descriptor) (a := .list) (mem_valTrees hw); omega)
      have hnames : (c.fields.zip ob.subs).map (fun x => x.1.name) = c.fields.map Field.name := by
        have : (c.fields.zip ob.subs).map (fun x => x.1.name) = ((c.fields.zip ob.subs).map Prod.fst).map Field.name := by
          rw [List.map_map]; rfl
        rw [this, List.map_fst_zip (by omega)]
      rw [hnames] at h2
      refine ⟨_, fun cur hcur => ?_, by rw [shown, ← h2]; exact pairVec_dump name vals⟩
      rw [valTree] at hcur
      have hcd : compositeDump F s (dump cu lf F s fuel) ob.subs cur = (.ok vals, cur) :=
        reads_compositeDump (hd _ hc) hsl (by rw [valTrees_length, hl]) h1 cur hcur
      rw [dump_succ ho]
      simp only [dumpWith, hkind]
      unfold autoNext
      have : isNull cur = (.ok false, cur) := by
        simp only [isNull, look, type_of_cur hcur, described, Node.val, Atom.type]; rfl
      rw [bind_of_ok this]
      simp only [Bool.false_eq_true, if_false]
      rw [bind_of_ok hcd]; rfl

end Corda
