import Verif.Lemmas.AnyFactory
import Verif.Lemmas.AnyTree

/-
What a reader object does at any position, for any schema that could be processed: the text of `Spec.textIn`.
-/

namespace Corda
open Prog Spec

/-- An object nothing owns cannot be had any more. -/
theorem Gone.lock {F : Factory} {j : Nat} (h : Gone F j) : F.lock j = none := by
  have : F.alive j = false := by
    unfold Factory.alive
    rw [Bool.or_eq_false_iff]
    constructor
    · rw [List.any_eq_false]
      intro e he hx
      exact h.types e he (by simpa using hx)
    · rw [List.any_eq_false]
      intro e he hx
      exact h.descs e he (by simpa using hx)
  unfold Factory.lock
  rw [this]
  rfl

/-- The factory has the readers of the table; the schema has these types. -/
structure Fitted (F : Factory) (s : Schema) (ts : List TypeNotation) (T : Table) : Prop where
  tabled : ∃ M, Tabled F M ∧ M.table = T
  found : ∀ d, s.fromDescriptor d = typeWith ts d

theorem Fitted.reader {F : Factory} {s : Schema} {ts : List TypeNotation} {T : Table} (h : Fitted F s ts T) {k : Str} {i : Nat}
    (hi : ReaderFor F k i) : ∃ w o, T.lookup k = some w ∧ F.objs[i]? = some o ∧ o.type = k ∧ Fits F w o := by
  obtain ⟨M, hM, rfl⟩ := h.tabled
  exact hM.reader hi

theorem Fitted.lock {F : Factory} {s : Schema} {ts : List TypeNotation} {T : Table} (h : Fitted F s ts T) {k : Str} {i : Nat}
    (hi : ReaderFor F k i) : ∃ o, F.lock i = some o := by
  obtain ⟨w, o, -, ho, -⟩ := h.reader hi
  exact ⟨o, hi.lock ho⟩

theorem any_useReader {F : Factory} {s : Schema} {ts : List TypeNotation} {T : Table} (h : Fitted F s ts T)
    {rec : Nat → Option Str → Prog Val} {texts : Texts} (hin : Inner F rec texts) {k : Option Str} {j : Nat}
    (hj : Refers F k j) {ps : List Node} {i : Nat} :
    Is (Pos ps i) (useReader F rec j) Val.dump (textUnder texts false k (nth ps i)) (Pos ps (i + 1)) := by
  unfold useReader
  cases k with
  | none =>
    rw [Gone.lock hj]
    exact is_ub _ _
  | some k =>
    obtain ⟨o, ho⟩ := h.lock hj
    rw [ho]
    exact (hin k j none ps i hj).eq (labelled_none_map _)

theorem any_listDump {F : Factory} {s : Schema} {ts : List TypeNotation} {T : Table} (h : Fitted F s ts T)
    {rec : Nat → Option Str → Prog Val} (hr : ∀ i n, Scoped (rec i n)) {texts : Texts} (hin : Inner F rec texts) {l : Option Str}
    {j : Nat} (hj : Refers F l j) {ps : List Node} {i : Nat} :
    Is (Pos ps i) (listDump F s rec [j]) (List.map Val.dump) (elementTexts ts texts l (nth ps i)) (Pos ps i) := by
  unfold listDump
  refine (is_bind (f := fun _ => kidsOf (nth ps i)) (g := List.map Val.dump) (R := Pos ps i)
    (h := fun ks => textOf (nth ks 0) >>= fun d => typeWith ts d >>= fun _ =>
      all ((listElements (nth ks 1)).map fun e => textUnder texts false l (some e))) is_attestDescribed fun _ hd => ?_).eq ?_
  · have hn := described_some hd
    generalize kidsOf (nth ps i) = ks at hn
    refine is_enter (Q := Pos ks 1) hn (scoped_listInner hr [j]) ?_
    simp only [Node.kids]
    refine is_bind (f := id) is_readString fun d hs => ?_
    obtain ⟨m, hm⟩ := text_some hs
    obtain ⟨m', hm'⟩ := nth_some_any (j := 1) hm
    refine is_bind (f := id) ((is_lift _).eq (h.found d)) fun _ _ => ?_
    refine is_listEnter (Q := fun _ => True) hm' (fun n => scoped_listItems hr [j] n) ?_
    have ht := is_times (fun i => any_useReader h hin hj (ps := m'.kids) (i := i)) (listElements (some m')).length 0
    refine ht.eq ?_
    rw [hm']
    by_cases he : listElements (some m') = []
    · rw [he]; rfl
    · congr 1
      rw [← range_map_get (listElements (some m')) (textUnder texts false l)]
      apply List.map_congr_left
      intro i hi
      rw [List.mem_range] at hi
      rw [listElements_kids he] at hi ⊢
      rw [← nth_lt hi]
      simp
  · unfold elementTexts body
    cases describedParts (nth ps i) with
    | throw m => rfl
    | ub m => rfl
    | ok ks =>
      simp only [Res.bind_eq, Res.bind]
      cases textOf (nth ks 0) with
      | throw m => rfl
      | ub m => rfl
      | ok d =>
        simp only [Res.bind]
        cases typeWith ts d <;> rfl

theorem any_mapDump {lf : Bool} {F : Factory} {s : Schema} {ts : List TypeNotation} {T : Table} (h : Fitted F s ts T)
    {rec : Nat → Option Str → Prog Val} (hr : ∀ i n, Scoped (rec i n)) {texts : Texts} (hin : Inner F rec texts)
    {k v : Option Str} {j j' : Nat} (hj : Refers F k j) (hj' : Refers F v j') {ps : List Node} {i : Nat} :
    Is (Pos ps i) (mapDump lf F s rec [j, j']) (List.map Val.dump) (entryTexts lf ts texts k v (nth ps i)) (Pos ps i) := by
  unfold mapDump
  refine (is_bind (f := fun _ => kidsOf (nth ps i)) (g := List.map Val.dump) (R := Pos ps i)
    (h := fun ks => textOf (nth ks 0) >>= fun d => typeWith ts d >>= fun _ =>
      all ((List.range (((mapParts (nth ks 1)).length + 1) / 2)).map fun i =>
        if lf then do
          let a ← textUnder texts false k (nth (mapParts (nth ks 1)) (2 * i))
          let b ← textUnder texts false v (nth (mapParts (nth ks 1)) (2 * i + 1))
          pure (colon a b)
        else do
          let b ← textUnder texts false v (nth (mapParts (nth ks 1)) (2 * i))
          let a ← textUnder texts false k (nth (mapParts (nth ks 1)) (2 * i + 1))
          pure (colon a b))) is_attestDescribed fun _ hd => ?_).eq ?_
  · have hn := described_some hd
    generalize kidsOf (nth ps i) = ks at hn
    refine is_enter (Q := Pos ks 1) hn (scoped_mapInner hr [j, j']) ?_
    simp only [Node.kids]
    refine is_bind (f := id) is_readString fun d hs => ?_
    obtain ⟨m, hm⟩ := text_some hs
    obtain ⟨m', hm'⟩ := nth_some_any (j := 1) hm
    refine is_bind (f := id) ((is_lift _).eq (h.found d)) fun _ _ => ?_
    refine is_mapEnter (Q := fun _ => True) hm' (fun n => scoped_mapItems hr [j, j'] n) ?_
    have ht := is_times (k := 2) (is_mapEntry (lf := lf) (fun i => any_useReader h hin hj (ps := m'.kids) (i := i))
      (fun i => any_useReader h hin hj' (ps := m'.kids) (i := i))) (((mapParts (some m')).length + 1) / 2) 0
    refine ht.eq ?_
    rw [hm']
    by_cases he : mapParts (some m') = []
    · rw [he]; rfl
    · rw [mapParts_kids he]
      simp only [Nat.zero_add]
  · unfold entryTexts body
    cases describedParts (nth ps i) with
    | throw m => rfl
    | ub m => rfl
    | ok ks =>
      simp only [Res.bind_eq, Res.bind]
      cases textOf (nth ks 0) with
      | throw m => rfl
      | ub m => rfl
      | ok d =>
        simp only [Res.bind]
        cases typeWith ts d <;> rfl

theorem any_dumpFields {F : Factory} {s : Schema} {ts : List TypeNotation} {T : Table} (h : Fitted F s ts T)
    {rec : Nat → Option Str → Prog Val} {texts : Texts} (hin : Inner F rec texts) {ns : List Node} (c : Composite)
    (fs gs : List Field) (subs : List Nat) (hl : fs.length = gs.length) (hs : subs.length = gs.length)
    (hg : ∀ g j, (g, j) ∈ gs.zip subs → Refers F (fieldRef c g) j) (i : Nat) :
    Is (Pos ns i) (dumpFields F rec (fs.zip subs)) (List.map Val.dump)
      (all (((fs.zip gs).zipIdx i).map fun x =>
        (colon x.1.1.name) <$> textUnder texts true (fieldRef c x.1.2) (nth ns x.2))) (fun _ => True) := by
  induction fs generalizing gs subs i with
  | nil =>
    cases subs <;> exact (is_pure (List.map Val.dump) []).post fun _ _ => trivial
  | cons f fs ih =>
    cases gs with
    | nil => simp at hl
    | cons g gs =>
      cases subs with
      | nil => simp at hs
      | cons j subs =>
        have hj := hg g j (by simp)
        rw [List.zip_cons_cons, List.zip_cons_cons, List.zipIdx_cons, List.map_cons, all]
        cases hr : fieldRef c g with
        | none =>
          rw [hr] at hj
          simp only [dumpFields, Gone.lock hj, textUnder, hr]
          exact is_throw _ _
        | some t =>
          rw [hr] at hj
          obtain ⟨o, ho⟩ := h.lock hj
          simp only [dumpFields, ho, textUnder, hr]
          refine is_bind (hin t j (some f.name) ns i hj) fun v _ => ?_
          refine is_bind (ih gs subs (by simpa using hl) (by simpa using hs) (fun g j hm => hg g j (by
            rw [List.zip_cons_cons]; exact List.mem_cons_of_mem _ hm)) (i + 1)) fun vs _ => ?_
          exact is_pure (List.map Val.dump) (v :: vs)

theorem any_compositeDump {F : Factory} {s : Schema} {ts : List TypeNotation} {T : Table} (h : Fitted F s ts T)
    {rec : Nat → Option Str → Prog Val} (hr : ∀ i n, Scoped (rec i n)) {texts : Texts} (hin : Inner F rec texts)
    (c : Composite) (subs : List Nat) (hs : subs.length = c.fields.length)
    (hg : ∀ g j, (g, j) ∈ c.fields.zip subs → Refers F (fieldRef c g) j) {ps : List Node} {i : Nat} :
    Is (Pos ps i) (compositeDump F s rec subs) (List.map Val.dump) (propertyTexts ts texts c (nth ps i)) (Pos ps i) := by
  unfold compositeDump propertyTexts
  refine is_bind is_attestDescribed fun _ hd => ?_
  have hn := described_some hd
  generalize kidsOf (nth ps i) = ks at hn
  refine is_enter (Q := fun _ => True) hn (scoped_compositeInner hr subs) ?_
  simp only [Node.kids]
  refine is_bind (f := id) is_getSymbol fun d hsym => ?_
  refine is_bind (f := id) ((is_lift _).eq (h.found d)) fun t _ => ?_
  cases t with
  | restr r => exact is_throw _ _
  | comp c' =>
    dsimp only [id]
    rw [hs]
    by_cases hl : c'.fields.length = c.fields.length
    · rw [if_pos hl, if_pos hl]
      refine (is_bind (r := .ok ()) (h := fun _ => _) is_next fun _ _ => ?_)
      refine is_bind is_attestList fun _ hls => ?_
      have hb := list_some hls
      generalize kidsOf (nth ks 1) = ns at hb
      exact (is_enter hb (scoped_dumpFields hr _) (any_dumpFields h hin c c'.fields c.fields subs hl hs hg 0)).post
        fun _ _ => trivial
    · rw [if_neg hl, if_neg hl]
      exact is_ub _ _

/-- **The main lemma.** Every reader object, at any position, does what `textIn` says. -/
theorem any_dump {lf : Bool} {F : Factory} {s : Schema} {ts : List TypeNotation} {T : Table} (h : Fitted F s ts T)
    (fuel : Nat) : Inner F (dump (fun _ _ => publicKeyDump) lf F s fuel) (textIn lf ts T fuel) := by
  have hcu : ∀ (k : Nat) (s : Schema) n, Scoped ((fun _ _ => publicKeyDump : Customs) k s n) := fun _ _ => scoped_publicKeyDump
  induction fuel with
  | zero => intro k j name ps i _; exact is_ub _ _
  | succ fuel hin =>
    have hr := scoped_dump (lf := lf) (F := F) (s := s) hcu fuel
    intro k j name ps i hj
    obtain ⟨w, o, hT, ho, -, hb⟩ := h.reader hj
    rw [textIn]
    simp only [dump, hT, ho, dumpWith]
    cases w with
    | key =>
      obtain ⟨n, hkind⟩ := hb
      simp only [hkind]
      exact is_publicKey name
    | prim p =>
      have hkind : o.kind = .prim p := hb
      simp only [hkind]
      refine (is_bind (f := id) (h := fun t => .ok (labelled name t)) (is_property p) fun t _ => ?_).eq ?_
      · rw [id, ← text_dump]; exact is_pure Val.dump _
      · simp
    | type u =>
      cases u with
      | comp c =>
        obtain ⟨hkind, hlen, hg⟩ := hb
        simp only [hkind]
        refine is_autoNext ((is_bind (f := id) (r := .ok (decide (valueOf (nth ps i) = some .null)))
          (h := fun b : Bool => if b then .ok (labelled name absent) else
            (fun l => labelled name (braces l)) <$> propertyTexts ts (textIn lf ts T fuel) c (nth ps i))
          (is_look (fun c => decide (c.type = .null)) (fun n => decide (valueOf n = some .null)) fun c hc => ?_)
          fun b _ => ?_).eq ?_)
        · rw [hc.type]
          cases valueOf (nth ps i) with
          | none => rfl
          | some a => cases a <;> simp [Atom.type]
        · cases b
          · simp only [Bool.false_eq_true, if_false, id]
            refine (is_bind (h := fun l => .ok (labelled name (braces l))) (any_compositeDump h hr hin c o.subs hlen hg)
              fun vs _ => ?_).eq (by simp)
            rw [← pairVec_dump]
            exact is_pure Val.dump _
          · simp only [if_true, id]
            rw [← null_dump]
            exact is_pure Val.dump _
        · simp only [Res.bind_eq, Res.bind, decide_eq_true_eq]
          split
          · rfl
          · rw [map_map_res]
      | restr r =>
        simp only [Fits] at hb
        cases hk : r.kind with
        | list l =>
          simp only [hk] at hb
          obtain ⟨hkind, j1, hs, hj1⟩ := hb
          simp only [hkind, hs, hk]
          rw [map_map_res]
          refine is_autoNext ((is_bind (h := fun x => .ok (labelled name (brackets x))) (any_listDump h hr hin hj1)
            fun vs _ => ?_).eq (by simp))
          rw [← pairList_dump]
          exact is_pure Val.dump _
        | array l =>
          simp only [hk] at hb
          obtain ⟨hkind, j1, hs, hj1⟩ := hb
          simp only [hkind, hs, hk]
          rw [map_map_res]
          refine is_autoNext ((is_bind (h := fun x => .ok (labelled name (brackets x))) (any_listDump h hr hin hj1)
            fun vs _ => ?_).eq (by simp))
          rw [← pairList_dump]
          exact is_pure Val.dump _
        | map a b =>
          simp only [hk] at hb
          obtain ⟨hkind, j1, j2, hs, hj1, hj2⟩ := hb
          simp only [hkind, hs, hk]
          rw [map_map_res]
          refine is_autoNext ((is_bind (h := fun x => .ok (labelled name (braces x))) (any_mapDump h hr hin hj1 hj2)
            fun vs _ => ?_).eq (by simp))
          rw [← pairVec_dump]
          exact is_pure Val.dump _
        | enum cs =>
          simp only [hk] at hb
          simp only [hb, hk]
          refine is_autoNext ((is_bind (h := fun _ => (labelled name) <$> enumText (nth ps i)) is_attestDescribed fun _ _ =>
            (is_bind (f := id) (h := fun t => .ok (labelled name t)) is_enumValue fun t _ => ?_).eq (by simp)).eq ?_)
          · rw [id, ← text_dump]; exact is_pure Val.dump _
          · unfold enumText
            cases describedParts (nth ps i) <;> rfl

/-! ### The bound on the depth does not matter -/

theorem textUnder_congr {f g : Texts} {b : Bool} {r : Option Str} {m : Option Node} (h : ∀ b t, f b t m = g b t m) :
    textUnder f b r m = textUnder g b r m := by
  cases r with
  | none => rfl
  | some t => exact h b t

theorem propertyTexts_congr {ts : List TypeNotation} {f g : Texts} {c : Composite} {n : Option Node}
    (h : ∀ b t m, depthOf m + 1 ≤ depthOf n → f b t m = g b t m) : propertyTexts ts f c n = propertyTexts ts g c n := by
  unfold propertyTexts
  cases hd : describedParts n with
  | throw m => rfl
  | ub m => rfl
  | ok ks =>
    have hn := described_some hd
    simp only [Res.bind_eq, Res.bind]
    cases symbolOf (nth ks 0) with
    | throw m => rfl
    | ub m => rfl
    | ok d =>
      simp only
      cases typeWith ts d with
      | throw m => rfl
      | ub m => rfl
      | ok u =>
        cases u with
        | restr r => rfl
        | comp c' =>
          simp only
          split
          · cases hl : listParts (nth ks 1) with
            | throw m => rfl
            | ub m => rfl
            | ok ns =>
              simp only
              refine all_congr fun x _ => ?_
              rw [textUnder_congr fun b t => h b t (nth ns x.2) (by rw [hn]; exact depth_part (a := .described) (list_some hl))]
          · rfl

theorem elementTexts_congr {ts : List TypeNotation} {f g : Texts} {l : Option Str} {n : Option Node}
    (h : ∀ b t m, depthOf m + 1 ≤ depthOf n → f b t m = g b t m) : elementTexts ts f l n = elementTexts ts g l n := by
  unfold elementTexts
  cases hb : body ts n with
  | throw m => rfl
  | ub m => rfl
  | ok b =>
    obtain ⟨ks, rfl, rfl⟩ := body_some hb
    simp only [Res.bind_eq, Res.bind]
    refine all_congr fun e he => textUnder_congr fun b t => h b t (some e) ?_
    cases hn : nth ks 1 with
    | none => rw [hn] at he; simp [listElements, valueOf] at he
    | some m =>
      rw [hn] at he
      have := listElements_kids (n := m) (List.ne_nil_of_mem he)
      rw [this] at he
      cases m with
      | mk a ls =>
        have h1 := height_kids (v := a) (ks := ls) he
        have h2 := height_kids (v := .described) (nth_mem hn)
        simp only [depthOf]
        omega

theorem entryTexts_congr {lf : Bool} {ts : List TypeNotation} {f g : Texts} {k v : Option Str} {n : Option Node}
    (h : ∀ b t m, depthOf m + 1 ≤ depthOf n → f b t m = g b t m) : entryTexts lf ts f k v n = entryTexts lf ts g k v n := by
  unfold entryTexts
  cases hb : body ts n with
  | throw m => rfl
  | ub m => rfl
  | ok b =>
    obtain ⟨ks, rfl, rfl⟩ := body_some hb
    simp only [Res.bind_eq, Res.bind]
    by_cases he : mapParts (nth ks 1) = []
    · rw [he]; rfl
    · have hd : ∀ i, depthOf (nth (mapParts (nth ks 1)) i) + 1 ≤ depthOf (some (.mk .described ks)) := by
        intro i
        cases hn : nth ks 1 with
        | none => rw [hn] at he; simp [mapParts, valueOf] at he
        | some m =>
          rw [hn] at he
          rw [mapParts_kids he]
          cases m with
          | mk a ls => exact depth_part (a := .described) hn
      refine all_congr fun i _ => ?_
      have hc : ∀ r j, textUnder f false r (nth (mapParts (nth ks 1)) j) = textUnder g false r (nth (mapParts (nth ks 1)) j) :=
        fun r j => textUnder_congr fun b t => h b t _ (hd j)
      simp only [hc]

/-- Whatever bound is given, if it is large enough, the text is the same. -/
theorem textIn_depth {lf : Bool} {ts : List TypeNotation} {T : Table} : ∀ (k k' : Nat) (named : Bool) (t : Str)
    (n : Option Node), depthOf n ≤ k → depthOf n ≤ k' → textIn lf ts T k named t n = textIn lf ts T k' named t n := by
  intro k
  induction k with
  | zero => intro k' named t n h; have := depth_pos n; omega
  | succ k ih =>
    intro k' named t n h h'
    cases k' with
    | zero => have := depth_pos n; omega
    | succ k' =>
      have hin : ∀ b t m, depthOf m + 1 ≤ depthOf n → textIn lf ts T k b t m = textIn lf ts T k' b t m :=
        fun b t m hm => ih k' b t m (by omega) (by omega)
      have h1 : ∀ c, propertyTexts ts (textIn lf ts T k) c n = propertyTexts ts (textIn lf ts T k') c n :=
        fun c => propertyTexts_congr hin
      have h2 : ∀ l, elementTexts ts (textIn lf ts T k) l n = elementTexts ts (textIn lf ts T k') l n :=
        fun l => elementTexts_congr hin
      have h3 : ∀ a b, entryTexts lf ts (textIn lf ts T k) a b n = entryTexts lf ts (textIn lf ts T k') a b n :=
        fun a b => entryTexts_congr hin
      rw [textIn, textIn]
      simp only [h1, h2, h3]

end Corda
