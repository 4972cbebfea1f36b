import Verif.Lemmas.Meaning
import Verif.Model.OwnSerialisers
import Verif.Spec.OwnSerialisers

/-
For C122: what the readers show if there are serialisers of a program's own.
-/

namespace Corda
open Prog Spec FProg

/-- A serialiser that does what one should: from wherever it is called it shows the value at the cursor under its name, as
`text` says, and goes on to the next one, and it takes no notice of what is above. -/
structure WellBehaved (p : Option Str → Prog Val) (text : OwnText) : Prop where
  inside : ∀ name, Scoped (p name)
  shows : ∀ name c, (Val.dump <$> (p name c).1) = (labelled name <$> text name.isSome c.cur)
  steps : ∀ name c v, (p name c).1 = .ok v → (p name c).2.cur = c.next.2.cur ∧ (p name c).2.rest = c.next.2.rest

/-- Each serialiser is for this type and makes of it what the text beside it says. -/
inductive Serve : OwnSerialisers → List (Str × OwnText) → Prop
  | nil : Serve [] []
  | cons {t : Str} {d : OwnDump} {f : OwnText} {own : OwnSerialisers} {texts : List (Str × OwnText)}
      (h : ∀ s, WellBehaved (d s) f) (hs : Serve own texts) : Serve ((t, d) :: own) ((t, f) :: texts)

theorem WellBehaved.is {p : Option Str → Prog Val} {text : OwnText} (h : WellBehaved p text) (name : Option Str) {ps : List Node}
    {i : Nat} : Is (Pos ps i) (p name) Val.dump (labelled name <$> text name.isSome (nth ps i)) (Pos ps (i + 1)) := by
  intro c hc
  refine ⟨by rw [h.shows, hc.1], fun v hv => ?_⟩
  have hn : Pos ps (i + 1) c.next.2 := (is_next c hc).2 _ rfl
  obtain ⟨h1, h2⟩ := h.steps name c v hv
  exact ⟨h1.trans hn.1, h2.trans hn.2⟩

theorem Serve.names {own : OwnSerialisers} {texts : List (Str × OwnText)} (h : Serve own texts) :
    own.map Prod.fst = texts.map Prod.fst := by
  induction h with
  | nil => rfl
  | cons h hs ih => simp [ih]

theorem Serve.inside {own : OwnSerialisers} {texts : List (Str × OwnText)} (h : Serve own texts) :
    ∀ k s n, Scoped (own.customs k s n) := by
  have : ∀ x ∈ own, ∀ s n, Scoped (x.2 s n) := by
    induction h with
    | nil => simp
    | cons h hs ih =>
      intro x hx s n
      rcases List.mem_cons.mp hx with rfl | hx
      · exact (h s).inside n
      · exact ih x hx s n
  intro k s n
  unfold OwnSerialisers.customs
  cases hk : own[k]? with
  | none => exact scoped_throw _
  | some x => exact this x (List.mem_of_getElem? hk) s n

theorem theirs_none {texts : List (Str × OwnText)} {k : Str} : theirs texts k = none ↔ k ∉ texts.map Prod.fst := by
  induction texts with
  | nil => simp [theirs]
  | cons x texts ih =>
    obtain ⟨t, f⟩ := x
    simp only [theirs, List.map_cons, List.mem_cons, not_or]
    cases hk : theirs texts k with
    | some g =>
      have : ¬ (k ∉ texts.map Prod.fst) := fun h => by rw [ih.mpr h] at hk; cases hk
      simp only [reduceCtorEq, false_iff]
      exact fun h => this h.2
    | none =>
      simp only [ih.mp hk, not_false_eq_true, and_true]
      by_cases e : k = t <;> simp [e]

/-- The serialiser with this number is the last one for its type. -/
def LastAt (own : OwnSerialisers) (k : Str) (m : Nat) (d : OwnDump) : Prop :=
  own[m]? = some (k, d) ∧ ∀ m' y, m < m' → own[m']? ≠ some (k, y)

/-- What is in the factory after the serialisers have been installed. -/
theorem installAll_has {own : OwnSerialisers} {texts : List (Str × OwnText)} (h : Serve own texts) (F : Factory) (n : Nat) :
    (∀ (i : Nat) (o : Ser), F.objs[i]? = some o → (F.installAll n (own.map Prod.fst)).objs[i]? = some o) ∧
    (F.installAll n (own.map Prod.fst)).byDesc = F.byDesc ∧
    ∀ k, match theirs texts k with
      | some f => ∃ (i m : Nat) (d : OwnDump), ReaderFor (F.installAll n (own.map Prod.fst)) k i ∧
          (F.installAll n (own.map Prod.fst)).objs[i]? = some ⟨.custom (n + m), k, []⟩ ∧ LastAt own k m d ∧ ∀ s, WellBehaved (d s) f
      | none => (F.installAll n (own.map Prod.fst)).byType.lookup k = F.byType.lookup k := by
  induction h generalizing F n with
  | nil => exact ⟨fun _ _ h => h, rfl, fun k => rfl⟩
  | @cons t d f own texts h hs ih =>
    obtain ⟨h1, h2, h3⟩ := ih (F.installCustom n t) (n + 1)
    simp only [List.map_cons, Factory.installAll]
    refine ⟨fun i o ho => h1 i o (getElem?_snoc ho), h2, fun k => ?_⟩
    have h3 := h3 k
    simp only [theirs]
    cases hk : theirs texts k with
    | some g =>
      rw [hk] at h3
      obtain ⟨i, m, d', g1, g2, g3, g4⟩ := h3
      refine ⟨i, m + 1, d', g1, by rw [g2, show n + 1 + m = n + (m + 1) by omega], ⟨by simpa using g3.1, fun m' y hm => ?_⟩, g4⟩
      obtain ⟨m'', rfl⟩ : ∃ m'', m' = m'' + 1 := ⟨m' - 1, by omega⟩
      simpa using g3.2 m'' y (by omega)
    | none =>
      rw [hk] at h3
      simp only at h3 ⊢
      by_cases e : k = t
      · subst e
        simp only [if_true]
        refine ⟨F.objs.length, 0, d, ?_, h1 _ _ (by simp [Factory.installCustom]), ⟨rfl, fun m' y hm e => ?_⟩, h⟩
        rotate_left
        · obtain ⟨m'', rfl⟩ : ∃ m'', m' = m'' + 1 := ⟨m' - 1, by omega⟩
          simp only [List.getElem?_cons_succ] at e
          have := List.mem_map_of_mem (f := Prod.fst) (List.mem_of_getElem? e)
          rw [hs.names] at this
          exact theirs_none.mp hk this
        unfold ReaderFor
        rw [h3]
        simp [Factory.installCustom, lookup_assign]
      · simp only [if_neg e]
        rw [h3]
        simp [Factory.installCustom, lookup_assign, e]

/-- The factory has the readers for these types and the serialisers of the program. -/
structure Provided (own : OwnSerialisers) (texts : List (Str × OwnText)) (F : Factory) (s : Schema) (ts : List TypeNotation) : Prop where
  entry : ∀ k i, ReaderFor F k i → ∃ o, F.objs[i]? = some o ∧
    match theirs texts k with
    | some f => ∃ (m : Nat) (d : OwnDump), o.kind = .custom m ∧ LastAt own k m d ∧ WellBehaved (d s) f
    | none => (∃ p, makePropertyReader k = .ok p ∧ o.kind = .prim p) ∨ ∃ u ∈ ts, u.name = k ∧ Built F u o
  names : ∀ u ∈ ts, ∀ v ∈ ts, u.name = v.name → u = v
  apart : ∀ u ∈ ts, u.name ∉ readable
  found : ∀ d, s.fromDescriptor d = typeWith ts d

theorem Provided.locked {own : OwnSerialisers} {texts : List (Str × OwnText)} {F : Factory} {s : Schema} {ts : List TypeNotation}
    (h : Provided own texts F s ts) : Locked F s ts :=
  ⟨fun hi => by obtain ⟨o, ho, -⟩ := h.entry _ _ hi; exact ⟨o, ho, hi.lock ho⟩, h.found⟩

/-- **The main lemma.** Every reader object, at any position, does what `textOwn` says. -/
theorem dump_own {own : OwnSerialisers} (hcu : ∀ k s n, Scoped (own.customs k s n)) {texts : List (Str × OwnText)} {lf : Bool}
    {F : Factory} {s : Schema} {ts : List TypeNotation} (h : Provided own texts F s ts) (fuel : Nat) :
    Inner F (dump own.customs lf F s fuel) (textOwn texts lf ts fuel) := by
  induction fuel with
  | zero => intro k j name ps i _; exact is_ub _ _
  | succ fuel hin =>
    have hr := scoped_dump (lf := lf) (F := F) (s := s) hcu fuel
    intro k j name ps i hj
    rw [textOwn]
    simp only [dump]
    obtain ⟨o, ho, hb⟩ := h.entry k j hj
    simp only [ho, dumpWith]
    cases ht : theirs texts k with
    | some f =>
      rw [ht] at hb
      obtain ⟨m, d, hkind, hm, hw⟩ := hb
      simp only [hkind, OwnSerialisers.customs, hm.1]
      exact hw.is name
    | none =>
      rw [ht] at hb
      simp only
      rcases hb with ⟨p, hp, hkind⟩ | ⟨u, hu, rfl, hb⟩
      · simp only [hkind, ((primNamed_eq k).1 p).mpr hp]
        refine (is_bind (f := id) (h := fun t => .ok (labelled name t)) (is_property p) fun t _ => ?_).eq ?_
        · rw [id, ← text_dump]; exact is_pure Val.dump _
        · simp
      · rw [(primNamed_eq u.name).2.mpr (h.apart u hu), typeNamed_eq h.names hu]
        cases u with
        | comp c =>
          obtain ⟨hkind, hlen, hg⟩ := hb
          simp only [hkind]
          refine is_autoNext ((is_bind (f := id) (r := .ok (decide (valueOf (nth ps i) = some .null)))
            (h := fun b : Bool => if b then .ok (labelled name absent) else
              (fun l => labelled name (braces l)) <$> objectTexts ts (textOwn texts lf ts fuel) c (nth ps i))
            (is_look (fun c => decide (c.type = .null)) (fun n => decide (valueOf n = some .null)) fun c hc => ?_)
            fun b _ => ?_).eq ?_)
          · rw [hc.type]
            cases valueOf (nth ps i) with
            | none => rfl
            | some a => cases a <;> simp [Atom.type]
          · cases b
            · simp only [Bool.false_eq_true, if_false, id]
              refine (is_bind (h := fun l => .ok (labelled name (braces l))) (is_compositeDump h.locked hr hin c o.subs hlen hg)
                fun vs _ => ?_).eq (by simp)
              rw [← pairVec_dump]
              exact is_pure Val.dump _
            · simp only [if_true, id]
              rw [← null_dump]
              exact is_pure Val.dump _
          · simp only [Res.bind_eq, Res.bind, decide_eq_true_eq]
            split
            · rfl
            · rw [map_map_res]
        | restr r =>
          simp only [Built] at hb
          cases hk : r.kind with
          | list l =>
            simp only [hk] at hb
            obtain ⟨hkind, j1, hs, hj1⟩ := hb
            simp only [hkind, hs, hk]
            rw [map_map_res]
            refine is_autoNext ((is_bind (h := fun x => .ok (labelled name (brackets x))) (is_listDump h.locked hr hin hj1)
              fun vs _ => ?_).eq (by simp))
            rw [← pairList_dump]
            exact is_pure Val.dump _
          | array l =>
            simp only [hk] at hb
            obtain ⟨hkind, j1, hs, hj1⟩ := hb
            simp only [hkind, hs, hk]
            rw [map_map_res]
            refine is_autoNext ((is_bind (h := fun x => .ok (labelled name (brackets x))) (is_listDump h.locked hr hin hj1)
              fun vs _ => ?_).eq (by simp))
            rw [← pairList_dump]
            exact is_pure Val.dump _
          | map a b =>
            simp only [hk] at hb
            obtain ⟨hkind, j1, j2, hs, hj1, hj2⟩ := hb
            simp only [hkind, hs, hk]
            rw [map_map_res]
            refine is_autoNext ((is_bind (h := fun x => .ok (labelled name (braces x))) (is_mapDump h.locked hr hin hj1 hj2)
              fun vs _ => ?_).eq (by simp))
            rw [← pairVec_dump]
            exact is_pure Val.dump _
          | enum cs =>
            simp only [hk] at hb
            simp only [hb, hk]
            refine is_autoNext ((is_bind (h := fun _ => (labelled name) <$> enumText (nth ps i)) is_attestDescribed fun _ _ =>
              (is_bind (f := id) (h := fun t => .ok (labelled name t)) is_enumValue fun t _ => ?_).eq (by simp)).eq ?_)
            · rw [id, ← text_dump]; exact is_pure Val.dump _
            · unfold enumText
              cases describedParts (nth ps i) <;> rfl

/-- Whatever bound is given, if it is large enough, the text is the same. -/
theorem textOwn_depth {texts : List (Str × OwnText)} {lf : Bool} {ts : List TypeNotation} :
    ∀ (k k' : Nat) (named : Bool) (t : Str) (n : Option Node),
    depthOf n ≤ k → depthOf n ≤ k' → textOwn texts lf ts k named t n = textOwn texts lf ts k' named t n := by
  intro k
  induction k with
  | zero => intro k' named t n h; have := depth_pos n; omega
  | succ k ih =>
    intro k' named t n h h'
    cases k' with
    | zero => have := depth_pos n; omega
    | succ k' =>
      have hin : ∀ b t m, depthOf m + 1 ≤ depthOf n → textOwn texts lf ts k b t m = textOwn texts lf ts k' b t m :=
        fun b t m hm => ih k' b t m (by omega) (by omega)
      have h1 : ∀ c, objectTexts ts (textOwn texts lf ts k) c n = objectTexts ts (textOwn texts lf ts k') c n :=
        fun c => objectTexts_congr hin
      have h2 : ∀ l, listTexts ts (textOwn texts lf ts k) l n = listTexts ts (textOwn texts lf ts k') l n :=
        fun l => listTexts_congr hin
      have h3 : ∀ a b, mapTexts lf ts (textOwn texts lf ts k) a b n = mapTexts lf ts (textOwn texts lf ts k') a b n :=
        fun a b => mapTexts_congr hin
      rw [textOwn, textOwn]
      simp only [h1, h2, h3]

/-! ### Serialisers for types that are not mentioned -/

theorem objectTexts_fields {ts : List TypeNotation} {f g : Texts} {c : Composite} {n : Option Node}
    (h : ∀ x ∈ c.fields, ∀ t, fieldTypeName x = some t → ∀ b m, f b t m = g b t m) : objectTexts ts f c n = objectTexts ts g c n := by
  unfold objectTexts
  cases describedParts n with
  | throw m => rfl
  | ub m => rfl
  | ok ks =>
    simp only [Res.bind_eq, Res.bind]
    cases symbolOf (nth ks 0) with
    | throw m => rfl
    | ub m => rfl
    | ok d =>
      simp only
      cases typeWith ts d with
      | throw m => rfl
      | ub m => rfl
      | ok u =>
        cases u with
        | restr r => rfl
        | comp c' =>
          simp only
          split
          · cases listParts (nth ks 1) with
            | throw m => rfl
            | ub m => rfl
            | ok ns =>
              simp only
              refine all_congr fun x hx => ?_
              have hx1 : x.1.2 ∈ c.fields := by
                have : x.1 ∈ c'.fields.zip c.fields := by
                  obtain ⟨⟨a, b⟩, i⟩ := x
                  exact List.mem_of_getElem? (List.mem_zipIdx_iff_getElem?.mp hx)
                exact (List.of_mem_zip (a := x.1.1) (b := x.1.2) this).2
              cases hf : fieldTypeName x.1.2 with
              | none => rfl
              | some t =>
                simp only
                rw [h x.1.2 hx1 t hf]
          · rfl

theorem listTexts_elems {ts : List TypeNotation} {f g : Texts} {l : Str} {n : Option Node} (h : ∀ b m, f b l m = g b l m) :
    listTexts ts f l n = listTexts ts g l n := by
  unfold listTexts
  simp only [h]

theorem mapTexts_pairs {lf : Bool} {ts : List TypeNotation} {f g : Texts} {k v : Str} {n : Option Node} (h : ∀ b m, f b k m = g b k m)
    (h' : ∀ b m, f b v m = g b v m) : mapTexts lf ts f k v n = mapTexts lf ts g k v n := by
  unfold mapTexts
  simp only [h, h']

theorem typeNamed_mem {ts : List TypeNotation} {t : Str} {u : TypeNotation} (h : typeNamed ts t = some u) : u ∈ ts :=
  List.mem_of_find?_eq_some h

theorem theirs_append (A B : List (Str × OwnText)) (t : Str) :
    theirs (A ++ B) t = match theirs B t with | some g => some g | none => theirs A t := by
  induction A with
  | nil => simp only [List.nil_append, theirs]; cases theirs B t <;> rfl
  | cons x A ih =>
    obtain ⟨a, f⟩ := x
    simp only [List.cons_append, theirs, ih]
    cases theirs B t <;> rfl

theorem textOwn_same {A B : List (Str × OwnText)} {names : List Str} {lf : Bool} {ts : List TypeNotation} (hu : Unmentioned names ts)
    (ha : ∀ t, t ∉ names → theirs A t = theirs B t) : ∀ (k : Nat) (named : Bool) (t : Str) (n : Option Node), t ∉ names →
    textOwn A lf ts k named t n = textOwn B lf ts k named t n := by
  intro k
  induction k with
  | zero => intros; rfl
  | succ k ih =>
    intro named t n ht
    rw [textOwn, textOwn, ha t ht]
    cases theirs B t with
    | some f => rfl
    | none =>
      simp only
      cases primNamed t with
      | some p => rfl
      | none =>
        simp only
        cases hn : typeNamed ts t with
        | none => rfl
        | some u =>
          have hm := typeNamed_mem hn
          cases u with
          | comp c =>
            simp only
            rw [objectTexts_fields fun x hx t ht b m => ih b t m (hu.fields c hm x hx t ht)]
          | restr r =>
            simp only
            cases hk : r.kind with
            | enum cs => rfl
            | list l => simp only; rw [listTexts_elems fun b m => ih b l m (hu.elems r l hm (.inl hk))]
            | array l => simp only; rw [listTexts_elems fun b m => ih b l m (hu.elems r l hm (.inr hk))]
            | map a b =>
              simp only
              rw [mapTexts_pairs (fun c m => ih c a m (hu.pairs r a b hm hk).1) fun c m => ih c b m (hu.pairs r a b hm hk).2]

theorem payloadOwn_same {A B : List (Str × OwnText)} {names : List Str} {lf : Bool} {ts : List TypeNotation} (hu : Unmentioned names ts)
    (ha : ∀ t, t ∉ names → theirs A t = theirs B t) (d : Str) (p : Node) : payloadOwn A lf ts d p = payloadOwn B lf ts d p := by
  unfold payloadOwn
  cases hf : ts.find? (fun u => u.descriptor == d) with
  | none => rfl
  | some u =>
    simp only
    rw [textOwn_same hu ha _ _ _ _ (hu.types u (List.mem_of_find?_eq_some hf))]

theorem fieldServed_mono {K K' : List Str} (h : ∀ k ∈ K, k ∈ K') {self : Str} {f : Field} (hf : fieldServed K self f) :
    fieldServed K' self f := by
  unfold fieldServed at hf ⊢
  cases hk : f.kind with
  | primitive =>
    rw [hk] at hf
    exact hf.imp id (h _)
  | _ =>
    rw [hk] at hf
    obtain ⟨x, hx, hm⟩ := hf
    exact ⟨x, hx, hm.imp id (h _)⟩

theorem elemServed_mono {K K' : List Str} (h : ∀ k ∈ K, k ∈ K') {t : Str} (hf : elemServed K t) : elemServed K' t :=
  hf.imp id (h _)

theorem served_mono {K K' : List Str} (h : ∀ k ∈ K, k ∈ K') {t : TypeNotation} (hs : served K t) : served K' t := by
  cases t with
  | comp c => exact fun f hf => fieldServed_mono h (hs f hf)
  | restr r =>
    simp only [served] at hs ⊢
    cases hk : r.kind with
    | list l => simp only [hk] at hs ⊢; exact elemServed_mono h hs
    | array l => simp only [hk] at hs ⊢; exact elemServed_mono h hs
    | map a b => simp only [hk] at hs ⊢; exact ⟨elemServed_mono h hs.1, elemServed_mono h hs.2⟩
    | enum cs => trivial

theorem ordered_mono (ts : List TypeNotation) : ∀ {K K' : List Str}, (∀ k ∈ K, k ∈ K') → Ordered K ts → Ordered K' ts := by
  induction ts with
  | nil => intro K K' _ _; trivial
  | cons t ts ih =>
    intro K K' h ho
    refine ⟨ho.1.imp (h _) (served_mono h), ih ?_ ho.2⟩
    intro k hk
    rcases List.mem_cons.mp hk with rfl | hk
    · exact List.mem_cons_self
    · exact List.mem_cons_of_mem _ (h k hk)

theorem Serve.append {a b : OwnSerialisers} {A B : List (Str × OwnText)} (h : Serve a A) (h' : Serve b B) : Serve (a ++ b) (A ++ B) := by
  induction h with
  | nil => exact h'
  | cons h hs ih => exact .cons h ih

/-! ### Serialisers that are not used -/

theorem dumpFields_congr {F : Factory} {rec rec' : Nat → Option Str → Prog Val} {fs : List (Field × Nat)}
    (h : ∀ x ∈ fs, rec x.2 = rec' x.2) : dumpFields F rec fs = dumpFields F rec' fs := by
  induction fs with
  | nil => rfl
  | cons x fs ih =>
    obtain ⟨f, i⟩ := x
    simp only [dumpFields]
    rw [ih fun x hx => h x (List.mem_cons_of_mem _ hx), h (f, i) List.mem_cons_self]

theorem useReader_congr {F : Factory} {rec rec' : Nat → Option Str → Prog Val} {i : Nat} (h : rec i = rec' i) :
    useReader F rec i = useReader F rec' i := by
  unfold useReader
  rw [h]

/-- A reader uses the readers inside it and nothing else. -/
theorem dumpWith_congr {cu cu' : Customs} {lf : Bool} {F : Factory} {s : Schema} {rec rec' : Nat → Option Str → Prog Val} {o : Ser}
    (hc : ∀ n, o.kind = .custom n → cu n = cu' n)
    (hs : o.kind = .composite ∨ o.kind = .list ∨ o.kind = .array ∨ o.kind = .map → ∀ j ∈ o.subs, rec j = rec' j) (name : Option Str) :
    dumpWith cu lf F s rec o name = dumpWith cu' lf F s rec' o name := by
  obtain ⟨kind, type, subs⟩ := o
  simp only at hc hs
  have hlist : (∀ j ∈ subs, rec j = rec' j) → listDump F s rec subs = listDump F s rec' subs := by
    intro h
    cases subs with
    | nil => rfl
    | cons i is => simp only [listDump, useReader_congr (h i List.mem_cons_self)]
  cases kind with
  | prim p => rfl
  | enum cs => rfl
  | custom n => simp only [dumpWith, hc n rfl]
  | composite =>
    have hs := hs (.inl rfl)
    have hD : ∀ fs : List Field, dumpFields F rec (fs.zip subs) = dumpFields F rec' (fs.zip subs) := fun fs =>
      dumpFields_congr fun x hx => hs x.2 (List.of_mem_zip (a := x.1) (b := x.2) hx).2
    simp only [dumpWith, compositeDump, hD]
  | list => simp only [dumpWith, hlist (hs (.inr (.inl rfl)))]
  | array => simp only [dumpWith, hlist (hs (.inr (.inr (.inl rfl))))]
  | map =>
    have hs := hs (.inr (.inr (.inr rfl)))
    have : mapDump lf F s rec subs = mapDump lf F s rec' subs := by
      unfold mapDump
      match subs, hs with
      | [], _ => rfl
      | [_], _ => rfl
      | [k, v], hs => simp only [useReader_congr (hs k (by simp)), useReader_congr (hs v (by simp))]
      | _ :: _ :: _ :: _, _ => rfl
    simp only [dumpWith, this]

/-- If the same is done by all serialisers that are reached from a reader, then the reader does the same. -/
theorem dump_congr {cu cu' : Customs} {lf : Bool} {F : Factory} {s : Schema} (reached : Nat → Prop)
    (h : ∀ (i : Nat) (o : Ser), reached i → F.objs[i]? = some o → (∀ n, o.kind = .custom n → cu n = cu' n) ∧
      (o.kind = .composite ∨ o.kind = .list ∨ o.kind = .array ∨ o.kind = .map → ∀ j ∈ o.subs, reached j)) (fuel : Nat) :
    ∀ i, reached i → dump cu lf F s fuel i = dump cu' lf F s fuel i := by
  induction fuel with
  | zero => intro i _; rfl
  | succ fuel ih =>
    intro i hi
    funext name
    simp only [dump]
    cases ho : F.objs[i]? with
    | none => rfl
    | some o =>
      obtain ⟨h1, h2⟩ := h i o hi ho
      exact dumpWith_congr h1 (fun hk j hj => ih j (h2 hk j hj)) name

end Corda
