import Verif.Spec.Boxed
import Verif.Lemmas.Avro
import Verif.Props.Readers

/-
C65: boxed Java types in the names of list, map and array types.
-/

namespace Corda.Props
open Corda Corda.Prog Corda.Spec

private theorem match_lits {u : Str} (hu : '.' ∉ u) {ps : List PatChar} {s : Str} (h : matchHere (toPat u ++ ps) s = true) :
    ∃ r, s = u ++ r ∧ matchHere ps r = true := by
  induction u generalizing s with
  | nil => exact ⟨s, rfl, h⟩
  | cons c u ih =>
    cases s with
    | nil => simp [toPat, matchHere] at h
    | cons d s =>
      have hc : c ≠ '.' := fun e => hu (by simp [e])
      simp only [toPat, List.map_cons, hc, if_false, List.cons_append, matchHere, PatChar.matches, Bool.and_eq_true, beq_iff_eq] at h
      obtain ⟨rfl, h⟩ := h
      obtain ⟨r, rfl, hr⟩ := ih (fun e => hu (by simp [e])) h
      exact ⟨r, rfl, hr⟩

private theorem match_any {ps : List PatChar} {s : Str} (h : matchHere (.any :: ps) s = true) :
    ∃ c r, s = c :: r ∧ matchHere ps r = true := by
  cases s with
  | nil => simp [matchHere] at h
  | cons c s =>
    simp only [matchHere, Bool.and_eq_true] at h
    exact ⟨c, s, rfl, h.2⟩

/-- What matches the pattern of a boxed type. -/
private theorem match_boxed {b s : Str} (hb : '.' ∉ b) (h : matchHere (toPat ("java.lang.".toList ++ b)) s = true) :
    ∃ c d r, s = "java".toList ++ c :: ("lang".toList ++ d :: (b ++ r)) := by
  have e : toPat ("java.lang.".toList ++ b) = toPat "java".toList ++ .any :: (toPat "lang".toList ++ .any :: (toPat b ++ [])) := by
    simp [toPat]
  rw [e] at h
  obtain ⟨r1, e1, h1⟩ := match_lits (by decide) h
  obtain ⟨c, r2, e2, h2⟩ := match_any h1
  obtain ⟨r3, e3, h3⟩ := match_lits (by decide) h2
  obtain ⟨d, r4, e4, h4⟩ := match_any h3
  obtain ⟨r5, e5, -⟩ := match_lits hb h4
  exact ⟨c, d, r5, by rw [e1, e2, e3, e4, e5]⟩

private theorem match_self (u r : Str) (h : (u.all fun c => c != '\n' && c != '\r') = true) : matchHere (toPat u) (u ++ r) = true := by
  induction u with
  | nil => cases r <;> rfl
  | cons c u ih =>
    simp only [List.all_cons, Bool.and_eq_true] at h
    have := ih h.2
    simp only [toPat, List.map_cons, List.cons_append, matchHere, Bool.and_eq_true]
    refine ⟨?_, this⟩
    split
    · next e => subst e; decide
    · simp [PatChar.matches]

private theorem replace_skip (pat : List PatChar) (rep u r : Str) : regexReplace pat rep u.length (u ++ r) = regexReplace pat rep 0 r := by
  induction u with
  | nil => rfl
  | cons c u ih => exact ih

private theorem replace_self (u rep r : Str) (h : (u.all fun c => c != '\n' && c != '\r') = true) (hne : u ≠ []) :
    regexReplace (toPat u) rep 0 (u ++ r) = rep ++ regexReplace (toPat u) rep 0 r := by
  cases u with
  | nil => exact absurd rfl hne
  | cons c u =>
    have hm := match_self (c :: u) r h
    rw [List.cons_append] at hm ⊢
    rw [regexReplace, if_pos hm]
    congr 1
    have : (toPat (c :: u)).length - 1 = u.length := by simp [toPat]
    rw [this]
    exact replace_skip _ _ _ _

private theorem replace_none (pat : List PatChar) (rep a b : Str) (h : ∀ q, q ≠ [] → q <:+ a → matchHere pat (q ++ b) = false) :
    regexReplace pat rep 0 (a ++ b) = a ++ regexReplace pat rep 0 b := by
  induction a with
  | nil => rfl
  | cons c a ih =>
    have h1 := h (c :: a) (by simp) List.suffix_rfl
    rw [List.cons_append] at h1 ⊢
    rw [regexReplace, h1, if_neg (by simp), ih fun q hq hs => h q hq (hs.trans (List.suffix_cons _ _))]
    rfl

/-- What may follow a type inside a type name. -/
private def Follows (r : Str) : Prop := r = [] ∨ ∃ c s, r = c :: s ∧ c ∈ [',', '>', '[']

private theorem cross {u q r w : Str} (hu : ∀ c ∈ u, c ∉ [',', '>', '[']) (hr : Follows r) (h : q ++ r = u ++ w) :
    ∃ q', q = u ++ q' ∧ q' ++ r = w := by
  induction u generalizing q with
  | nil => exact ⟨q, rfl, h⟩
  | cons c u ih =>
    cases q with
    | nil =>
      rcases hr with rfl | ⟨d, s, rfl, hd⟩
      · simp at h
      · simp only [List.nil_append, List.cons_append, List.cons.injEq] at h
        exact absurd hd (h.1 ▸ hu c (by simp))
    | cons d q =>
      simp only [List.cons_append, List.cons.injEq] at h
      obtain ⟨rfl, h⟩ := h
      obtain ⟨q', rfl, h'⟩ := ih (fun x hx => hu x (by simp [hx])) h
      exact ⟨q', rfl, h'⟩

/-- A match that starts inside a name lies inside it, unless the name ends in `java` or `lang`. -/
private theorem match_inside {b n q r : Str} (hb : '.' ∉ b) (hb' : ∀ c ∈ b, c ∉ [',', '>', '[']) (h1 : ¬ "java".toList <:+ n)
    (h2 : ¬ "lang".toList <:+ n) (hq : q <:+ n) (hr : Follows r)
    (h : matchHere (toPat ("java.lang.".toList ++ b)) (q ++ r) = true) :
    ∃ c d s, q = "java".toList ++ c :: ("lang".toList ++ d :: (b ++ s)) := by
  obtain ⟨c, d, w, e⟩ := match_boxed hb h
  obtain ⟨q1, e1, f1⟩ := cross (by decide) hr e
  cases q1 with
  | nil => exact absurd (by rw [e1, List.append_nil] at hq; exact hq) h1
  | cons c' q1 =>
    rw [List.cons_append, List.cons.injEq] at f1
    obtain ⟨q2, e2, f2⟩ := cross (by decide) hr f1.2
    cases q2 with
    | nil => exact absurd (List.IsSuffix.trans ⟨"java".toList ++ [c'], by rw [e1, e2]; simp⟩ hq) h2
    | cons d' q2 =>
      rw [List.cons_append, List.cons.injEq] at f2
      obtain ⟨q3, e3, f3⟩ := cross hb' hr f2.2
      exact ⟨c', d', q3, by rw [e1, e2, e3]⟩

private theorem match_short {pat : List PatChar} {q r : Str} (h : matchHere pat (q ++ r) = true) (hl : pat.length ≤ q.length) :
    matchHere pat q = true := by
  induction pat generalizing q with
  | nil => cases q <;> rfl
  | cons p pat ih =>
    cases q with
    | nil => simp at hl
    | cons c q =>
      simp only [List.cons_append, matchHere, Bool.and_eq_true] at h ⊢
      exact ⟨h.1, ih h.2 (by simpa using hl)⟩

/-- No match of this pattern inside the name. -/
private def Avoids (b n : Str) : Prop :=
  ¬ "java".toList <:+ n ∧ ¬ "lang".toList <:+ n ∧ ∀ k < n.length + 1, matchHere (toPat ("java.lang.".toList ++ b)) (n.drop k) = false

private theorem suffix_drop {q n : Str} (h : q <:+ n) : ∃ k < n.length + 1, n.drop k = q := by
  obtain ⟨p, rfl⟩ := h
  exact ⟨p.length, by simp; omega, by simp⟩

private instance (b n : Str) : Decidable (Avoids b n) := by unfold Avoids; infer_instance

private theorem replace_leaf {b n r rep : Str} (hb : '.' ∉ b) (hb' : ∀ c ∈ b, c ∉ [',', '>', '[']) (h : Avoids b n) (hr : Follows r) :
    regexReplace (toPat ("java.lang.".toList ++ b)) rep 0 (n ++ r) = n ++ regexReplace (toPat ("java.lang.".toList ++ b)) rep 0 r := by
  refine replace_none _ _ _ _ fun q _ hq => ?_
  cases hm : matchHere (toPat ("java.lang.".toList ++ b)) (q ++ r) with
  | false => rfl
  | true =>
    obtain ⟨c, d, s, e⟩ := match_inside hb hb' h.1 h.2.1 hq hr hm
    have := match_short hm (by rw [e]; simp [toPat])
    obtain ⟨k, hk, hd⟩ := suffix_drop hq
    rw [← hd, h.2.2 k hk] at this
    exact absurd this (by simp)

private theorem replace_plain {b a r rep : Str} (hb : '.' ∉ b) (ha : 'j' ∉ a) :
    regexReplace (toPat ("java.lang.".toList ++ b)) rep 0 (a ++ r) = a ++ regexReplace (toPat ("java.lang.".toList ++ b)) rep 0 r := by
  refine replace_none _ _ _ _ fun q hq hs => ?_
  cases hm : matchHere (toPat ("java.lang.".toList ++ b)) (q ++ r) with
  | false => rfl
  | true =>
    obtain ⟨c, d, w, e⟩ := match_boxed hb hm
    cases q with
    | nil => exact absurd rfl hq
    | cons x q =>
      have : x = 'j' := (List.cons.inj e).1
      exact absurd (hs.subset (by simp [this])) ha

private theorem replace_open {b r rep : Str} (hb : '.' ∉ b) (o : Str) (ho : o ∈ ["List<".toList, "Map<".toList]) :
    regexReplace (toPat ("java.lang.".toList ++ b)) rep 0 (("java.util.".toList ++ o) ++ r)
      = ("java.util.".toList ++ o) ++ regexReplace (toPat ("java.lang.".toList ++ b)) rep 0 r := by
  have : 'j' ∉ "ava.util.".toList ++ o := by
    revert o; decide
  have e : "java.util.".toList ++ o = 'j' :: ("ava.util.".toList ++ o) := rfl
  have hm : matchHere (toPat ("java.lang.".toList ++ b)) ('j' :: ("ava.util.".toList ++ o) ++ r) = false := by
    cases hm : matchHere (toPat ("java.lang.".toList ++ b)) ('j' :: ("ava.util.".toList ++ o) ++ r) with
    | false => rfl
    | true =>
      obtain ⟨c, d, w, e⟩ := match_boxed hb hm
      simp at e
  rw [e, List.cons_append, regexReplace, ← List.cons_append, hm, if_neg (by simp), replace_plain hb this]
  rfl

private theorem follows_cons {c : Char} (h : c ∈ [',', '>', '[']) (s : Str) : Follows (c :: s) := .inr ⟨c, s, rfl, h⟩

/-- One pattern of the table, on the name of a type. -/
private theorem replace_type {b rep : Str} (hb : '.' ∉ b) (hb' : ∀ c ∈ b, c ∉ [',', '>', '['])
    (hb'' : (("java.lang.".toList ++ b).all fun c => c != '\n' && c != '\r') = true) (t : AvroShape)
    (h : t.AllLeaves fun n => n = "java.lang.".toList ++ b ∨ Avoids b n) (r : Str) (hr : Follows r) :
    regexReplace (toPat ("java.lang.".toList ++ b)) rep 0 (t.render ++ r)
      = (t.mapLeaf fun n => if n = "java.lang.".toList ++ b then rep else n).render
        ++ regexReplace (toPat ("java.lang.".toList ++ b)) rep 0 r := by
  induction t generalizing r with
  | leaf n =>
    simp only [AvroShape.render, AvroShape.mapLeaf]
    rcases h with h | h
    · rw [if_pos h, h]
      exact replace_self _ _ _ hb'' (by simp)
    · have : n ≠ "java.lang.".toList ++ b := by
        rintro rfl
        have := h.2.2 0 (by omega)
        have h2 := match_self ("java.lang.".toList ++ b) [] hb''
        rw [List.append_nil] at h2
        rw [List.drop_zero, h2] at this
        exact absurd this (by simp)
      rw [if_neg this]
      exact replace_leaf hb hb' h hr
  | array p t ih =>
    simp only [AvroShape.render, AvroShape.mapLeaf, List.append_assoc]
    have hm : ∃ s, arrayMark p = '[' :: s := by cases p <;> exact ⟨_, rfl⟩
    obtain ⟨s, hs⟩ := hm
    have hj : 'j' ∉ arrayMark p := by cases p <;> decide
    rw [ih h _ (by rw [hs]; exact follows_cons (by decide) _), replace_plain hb hj]
  | list t ih =>
    simp only [AvroShape.render, AvroShape.mapLeaf, List.append_assoc]
    rw [show Spec.listOpen = "java.util.".toList ++ "List<".toList from by decide, replace_open hb _ (by decide),
      ih h (['>'] ++ r) (follows_cons (by decide) r), replace_plain hb (by decide)]
  | map k a v iha ihv =>
    simp only [AvroShape.render, AvroShape.mapLeaf, List.append_assoc, List.cons_append]
    have hj : 'j' ∉ ',' :: List.replicate k ' ' := by
      intro h
      rcases List.mem_cons.mp h with h | h
      · exact absurd h (by decide)
      · exact absurd (List.eq_of_mem_replicate h) (by decide)
    have := replace_plain (rep := rep) (r := v.render ++ (['>'] ++ r)) hb hj
    simp only [List.cons_append] at this
    have last := replace_plain (b := b) (a := ['>']) (r := r) (rep := rep) hb (by decide)
    simp only [List.cons_append] at last
    rw [show Spec.mapOpen = "java.util.".toList ++ "Map<".toList from by decide, replace_open hb _ (by decide),
      iha h.1 _ (follows_cons (by decide) _), this, ihv h.2 _ (follows_cons (by decide) _), last]

private theorem AllLeaves.mono {P Q : Str → Prop} (h : ∀ n, P n → Q n) {t : AvroShape} (ht : t.AllLeaves P) : t.AllLeaves Q := by
  induction t with
  | leaf => exact h _ ht
  | array _ _ ih => exact ih ht
  | list _ ih => exact ih ht
  | map _ _ _ ih1 ih2 => exact ⟨ih1 ht.1, ih2 ht.2⟩

private theorem AllLeaves.map {P Q : Str → Prop} {f : Str → Str} (h : ∀ n, P n → Q (f n)) {t : AvroShape} (ht : t.AllLeaves P) :
    (t.mapLeaf f).AllLeaves Q := by
  induction t with
  | leaf => exact h _ ht
  | array _ _ ih => exact ih ht
  | list _ ih => exact ih ht
  | map _ _ _ ih1 ih2 => exact ⟨ih1 ht.1, ih2 ht.2⟩

private theorem mapLeaf_comp (f g : Str → Str) (t : AvroShape) : (t.mapLeaf f).mapLeaf g = t.mapLeaf fun n => g (f n) := by
  induction t with
  | leaf => rfl
  | array p t ih => simp only [AvroShape.mapLeaf, ih]
  | list t ih => simp only [AvroShape.mapLeaf, ih]
  | map b k v ihk ihv => simp only [AvroShape.mapLeaf, ihk, ihv]

private theorem mapLeaf_congr {P : Str → Prop} {f g : Str → Str} (h : ∀ n, P n → f n = g n) :
    ∀ {t : AvroShape}, t.AllLeaves P → t.mapLeaf f = t.mapLeaf g
  | .leaf _, ht => congrArg AvroShape.leaf (h _ ht)
  | .array _ _, ht => congrArg (AvroShape.array _) (mapLeaf_congr h ht)
  | .list _, ht => congrArg AvroShape.list (mapLeaf_congr h ht)
  | .map _ _ _, ht => by simp only [AvroShape.mapLeaf, mapLeaf_congr h ht.1, mapLeaf_congr h ht.2]

/-- Names that occur while the table is worked through. -/
private def Known (n : Str) : Prop := n ∈ boxed.map (·.1.toList) ∨ n ∈ boxed.map (·.2.toList) ∨ Unrelated n

private theorem known_avoids {r : Str × Str} (hr : r ∈ regexs) :
    ∃ b ∈ boxedSimple, r.1 = "java.lang.".toList ++ b ∧ ∀ n, Known n → n = r.1 ∨ Avoids b n := by
  have tab : ∀ r ∈ regexs, ∃ b ∈ boxedSimple, r.1 = "java.lang.".toList ++ b
      ∧ (∀ n ∈ boxed.map (·.1.toList), n = r.1 ∨ Avoids b n) ∧ (∀ n ∈ boxed.map (·.2.toList), Avoids b n) := by decide +kernel
  obtain ⟨b, hb, e, h1, h2⟩ := tab r hr
  have hdot : '.' ∉ b := by
    have : ∀ b ∈ boxedSimple, '.' ∉ b := by decide
    exact this b hb
  refine ⟨b, hb, e, fun n hn => ?_⟩
  rcases hn with hn | hn | ⟨g1, g2, g3⟩
  · exact h1 n hn
  · exact .inr (h2 n hn)
  · refine .inr ⟨g1, g2, fun k _ => ?_⟩
    cases hm : matchHere (toPat ("java.lang.".toList ++ b)) (n.drop k) with
    | false => rfl
    | true =>
      obtain ⟨c, d, w, e⟩ := match_boxed hdot hm
      exact absurd (by rw [← e, List.take_append_drop]) (g3 b hb (n.take k) w c d)

private theorem fold_table (rs : List (Str × Str)) (hrs : ∀ r ∈ rs, r ∈ regexs) (t : AvroShape) (h : t.AllLeaves Known) :
    rs.foldl (fun name r => regexReplace (toPat r.1) r.2 0 name) t.render
      = (t.mapLeaf fun n => rs.foldl (fun n r => if n = r.1 then r.2 else n) n).render := by
  induction rs generalizing t with
  | nil =>
    simp only [List.foldl_nil]
    congr 1
    induction t with
    | leaf => rfl
    | array p t ih => simp only [AvroShape.mapLeaf, ← ih h]
    | list t ih => simp only [AvroShape.mapLeaf, ← ih h]
    | map b k v ihk ihv => simp only [AvroShape.mapLeaf, ← ihk h.1, ← ihv h.2]
  | cons r rs ih =>
    obtain ⟨b, hb, e, hk⟩ := known_avoids (hrs r (by simp))
    have facts : ∀ b ∈ boxedSimple, '.' ∉ b ∧ (∀ c ∈ b, c ∉ [',', '>', '['])
        ∧ (("java.lang.".toList ++ b).all fun c => c != '\n' && c != '\r') = true := by decide
    obtain ⟨f1, f2, f3⟩ := facts b hb
    have step := replace_type (rep := r.2) f1 f2 f3 t (AllLeaves.mono (fun n hn => by rw [← e]; exact hk n hn) h) [] (.inl rfl)
    rw [← e] at step
    simp only [List.append_nil] at step
    have hz : regexReplace (toPat r.1) r.2 0 [] = [] := rfl
    rw [hz, List.append_nil] at step
    have hval : ∀ r ∈ regexs, r.2 ∈ boxed.map (·.2.toList) := by decide
    simp only [List.foldl_cons]
    rw [step, ih (fun x hx => hrs x (by simp [hx])) _ (AllLeaves.map (P := Known) (fun n hn => by
      split
      · exact .inr (.inl (hval r (hrs r (by simp))))
      · exact hn) h), mapLeaf_comp]

private theorem unrelated_ne {n : Str} (h : Unrelated n) : (∀ r ∈ regexs, n ≠ r.1) ∧ unboxed n = n := by
  have ne : ∀ r ∈ regexs, n ≠ r.1 := by
    intro r hr e
    obtain ⟨b, hb, e', -⟩ := known_avoids hr
    refine h.2.2 b hb [] [] '.' '.' ?_
    rw [e, e']
    simp
  have ne2 : ∀ p ∈ boxed, (p.1.toList == n) = false := by
    have tab : ∀ p ∈ boxed, p.1.toList ∈ regexs.map (·.1) := by decide
    intro p hp
    obtain ⟨r, hr, e⟩ := List.mem_map.mp (tab p hp)
    have := ne r hr
    rw [e] at this
    simpa using fun h => this h.symm
  refine ⟨ne, ?_⟩
  unfold unboxed
  rw [List.find?_eq_none.mpr fun p hp => by simp [ne2 p hp]]

private theorem fold_unboxed {n : Str} (h : BoxedOrUnrelated n) :
    regexs.foldl (fun n r => if n = r.1 then r.2 else n) n = unboxed n := by
  rcases h with h | h
  · have : ∀ n ∈ boxed.map (·.1.toList), regexs.foldl (fun n r => if n = r.1 then r.2 else n) n = unboxed n := by decide +kernel
    exact this n h
  · obtain ⟨ne, this⟩ := unrelated_ne h
    rw [this]
    generalize regexs = rs at ne
    induction rs with
    | nil => rfl
    | cons r rs ih =>
      rw [List.foldl_cons, if_neg (ne r (by simp))]
      exact ih fun x hx => ne x (by simp [hx])

private theorem makePrim_render (t : AvroShape) (h : t.AllLeaves BoxedOrUnrelated) :
    makePrim t.render = (t.mapLeaf unboxed).render := by
  unfold makePrim
  rw [fold_table regexs (fun _ h => h) t (AllLeaves.mono (fun n hn => hn.elim .inl fun h => .inr (.inr h)) h),
    mapLeaf_congr (fun n => fold_unboxed) h]

private theorem unboxed_ok {n : Str} (h : (AvroShape.leaf n).Ok) : (AvroShape.leaf (unboxed n)).Ok := by
  rcases unboxed_cases n with ⟨p, hp, -, h2⟩ | ⟨-, h'⟩
  · have tab : ∀ p ∈ boxed, (p.2.toList.all fun c => c != '<' && c != '>' && c != ',') = true ∧ ¬ ContainerName p.2.toList
        ∧ p.2.toList.head? ≠ some ' ' ∧ p.2.toList ≠ [] ∧ p.2.toList ≠ "]".toList ∧ p.2.toList ≠ "p]".toList := by decide
    obtain ⟨h1, h3, h4, h5, h6, h7⟩ := tab p hp
    rw [h2]
    exact leaf_ok h1 h3 h4 h5 h6 h7
  · rw [h']; exact h

private theorem mapLeaf_ok {t : AvroShape} (h : t.Ok) : (t.mapLeaf unboxed).Ok := by
  induction t with
  | leaf n => exact unboxed_ok h
  | array p t ih => exact ih h
  | list t ih => exact ih h
  | map b k v ihk ihv => exact ⟨ihk h.1, ihv h.2⟩

private theorem unboxed_mapLeaf (t : AvroShape) : unboxed (t.mapLeaf unboxed).render = (t.mapLeaf unboxed).render := by
  cases t with
  | leaf n =>
    have := (C09_unbox n).2.2
    rw [(C09_unbox n).1, (C09_unbox _).1] at this
    exact this
  | _ => exact shape_unboxed _ rfl

/-- **C65 for lists, partial.** A list type of any nesting is read with each boxed type in its name replaced by its primitive and
nothing else changed; the type of its elements likewise.  This is for names in which what is not a boxed type does not look like
one. -/
theorem C65_boxed_list_partial (t : AvroShape) (label : Str) (provides : List Str) (fp : Str) (fuel : Nat)
    (ht : t.AllLeaves BoxedOrUnrelated) (hs : (AvroShape.list (t.mapLeaf unboxed)).render.Small) :
    readNode (fuel + 2) (restrictedTree (AvroShape.list t).render label provides "list".toList fp [])
      = .ok (.notation (.restr ⟨(AvroShape.list (t.mapLeaf unboxed)).render, label, provides, fp,
          .list (t.mapLeaf unboxed).render⟩)) := by
  have h := read_restricted fuel (AvroShape.list t).render label provides "list".toList fp []
  simp only [List.map_nil] at h
  rw [h, makePrim_render (.list t) ht]
  simp only [AvroShape.mapLeaf]
  rw [(C18_restricted_partial fp (AvroShape.list (t.mapLeaf unboxed)).render label provides "list".toList []).2.2.1
    _ _ (shape_list_render _) (by decide) hs, unboxed_mapLeaf]
  rfl

/-- **C65 for maps, partial.** -/
theorem C65_boxed_map_partial (b : Nat) (k v : AvroShape) (label : Str) (provides : List Str) (fp : Str) (fuel : Nat)
    (ht : (AvroShape.map b k v).AllLeaves BoxedOrUnrelated) (hok : (AvroShape.map b k v).Ok)
    (hs : (AvroShape.map b (k.mapLeaf unboxed) (v.mapLeaf unboxed)).render.Small) :
    readNode (fuel + 2) (restrictedTree (AvroShape.map b k v).render label provides "map".toList fp [])
      = .ok (.notation (.restr ⟨(AvroShape.map b (k.mapLeaf unboxed) (v.mapLeaf unboxed)).render, label, provides, fp,
          .map (k.mapLeaf unboxed).render (v.mapLeaf unboxed).render⟩)) := by
  have h := read_restricted fuel (AvroShape.map b k v).render label provides "map".toList fp []
  simp only [List.map_nil] at h
  rw [h, makePrim_render (.map b k v) ht]
  simp only [AvroShape.mapLeaf]
  rw [(C18_restricted_partial fp (AvroShape.map b (k.mapLeaf unboxed) (v.mapLeaf unboxed)).render label provides "map".toList
    []).2.2.2.2 _ _ [] (List.replicate b ' ') (shape_map_render _ _ _) (by simp) (fun c hc => List.eq_of_mem_replicate hc)
    (shape_typeName _ (mapLeaf_ok hok.1)) (shape_typeName _ (mapLeaf_ok hok.2)) hs, unboxed_mapLeaf, unboxed_mapLeaf]
  rfl

/-- **C65 for arrays, partial.** -/
theorem C65_boxed_array_partial (p : Bool) (n : Str) (label : Str) (provides : List Str) (fp : Str) (fuel : Nat)
    (ht : BoxedOrUnrelated n) (hn : '[' ∉ n) :
    readNode (fuel + 2) (restrictedTree (n ++ arrayMark p) label provides "list".toList fp [])
      = .ok (.notation (.restr ⟨unboxed n ++ arrayMark p, label, provides, fp, .array (unboxed n)⟩)) := by
  have h := read_restricted fuel (n ++ arrayMark p) label provides "list".toList fp []
  simp only [List.map_nil] at h
  have e : makePrim (n ++ arrayMark p) = unboxed n ++ arrayMark p := makePrim_render (.array p (.leaf n)) ht
  have hu : '[' ∉ unboxed n := by
    rcases unboxed_cases n with ⟨q, hq, -, h2⟩ | ⟨-, h'⟩
    · have : ∀ q ∈ boxed, '[' ∉ q.2.toList := by decide
      rw [h2]; exact this q hq
    · rw [h']; exact hn
  rw [h, e, (C18_restricted_partial fp (unboxed n ++ arrayMark p) label provides "list".toList []).2.2.2.1 (unboxed n)
    (by cases p <;> simp [arrayMark]) hu]
  have := unboxed_mapLeaf (.leaf n)
  simp only [AvroShape.mapLeaf, AvroShape.render] at this
  rw [this]
  rfl

/-- **C65 for enumerations, partial**: the name of an enumeration that is unrelated to boxed types is kept. -/
theorem C65_enum_name_partial (n : Str) (label : Str) (provides : List Str) (fp : Str) (cs : List (Str × List Node)) (fuel : Nat)
    (hcs : cs ≠ []) (hn : Unrelated n) :
    readNode (fuel + 2) (restrictedTree n label provides "list".toList fp (cs.map fun c => choiceTree c.1 c.2))
      = .ok (.notation (.restr ⟨n, label, provides, fp, .enum (cs.map Prod.fst)⟩)) := by
  rw [C21_enum_read n label provides fp cs hcs fuel]
  have e : makePrim n = unboxed n := makePrim_render (.leaf n) (.inr hn)
  rw [e, (unrelated_ne hn).2]

/-- **C65 is false.** What only begins like a boxed type, or has other characters in place of the dots, is changed too: an
enumeration `java.lang.IntegerKind` is read as `intKind`, `my.java.lang.LongList` as `my.longList`, `javaXlang.Byte` as
`char`. -/
theorem C65_boxed_names_violated :
    (∀ p ∈ [("java.lang.IntegerKind", "intKind"), ("my.java.lang.LongList", "my.longList"), ("javaXlang.Byte", "char")],
      readNode 3 (restrictedTree p.1.toList [] [] "list".toList "fp".toList [choiceTree "A".toList []])
        = .ok (.notation (.restr ⟨p.2.toList, [], [], "fp".toList, .enum ["A".toList]⟩))) := by
  decide +kernel

example : readNode 2 (restrictedTree "java.util.Map<java.lang.String, java.util.List<java.lang.Long>>".toList [] [] "map".toList "fp".toList [])
    = .ok (.notation (.restr ⟨"java.util.Map<java.lang.String, java.util.List<long>>".toList, [], [], "fp".toList,
        .map "java.lang.String".toList "java.util.List<long>".toList⟩)) := by
  decide +kernel

/-! ### C66: boxed types inside blobs -/

/-- The same description, or the same but for boxed types in the name of a list, map or array type, which are replaced. -/
inductive SameUnboxed : TypeDesc → TypeDesc → Prop
  | same (d : TypeDesc) : SameUnboxed d d
  | restr (t : AvroShape) (source fp : Str) : t.AllLeaves BoxedOrUnrelated →
      SameUnboxed (.restr t.render source fp) (.restr (t.mapLeaf unboxed).render source fp)

private theorem prim_unrelated : ∀ p ∈ boxed, Unrelated p.2.toList := by
  have tab : ∀ p ∈ boxed, ¬ "java".toList <:+ p.2.toList ∧ ¬ "lang".toList <:+ p.2.toList ∧ 'j' ∉ p.2.toList := by decide
  intro p hp
  obtain ⟨h1, h2, h3⟩ := tab p hp
  refine ⟨h1, h2, fun b _ q s c d e => h3 ?_⟩
  rw [e]
  simp

private theorem unboxed_known {n : Str} (h : BoxedOrUnrelated n) : BoxedOrUnrelated (unboxed n) := by
  rcases unboxed_cases n with ⟨p, hp, -, h2⟩ | ⟨-, h'⟩
  · rw [h2]; exact .inr (prim_unrelated p hp)
  · rw [h']; exact h

private theorem sameUnboxed_make {d d' : TypeDesc} (h : SameUnboxed d d') : d'.make = d.make := by
  cases h with
  | same => rfl
  | restr t source fp ht =>
    simp only [TypeDesc.make]
    rw [makePrim_render t ht, makePrim_render _ (AllLeaves.map (fun n hn => unboxed_known hn) ht), mapLeaf_comp,
      mapLeaf_congr (g := unboxed) (fun n _ => by
        have := (C09_unbox n).2.2
        rw [(C09_unbox n).1, (C09_unbox _).1] at this
        exact this) ht]

/-- **C66, partial.** If boxed types occur only in the names of list, map and array types themselves, a blob that the inspector
shows is shown in the same way with the boxed types replaced by primitives. -/
theorem C66_boxed_blob_partial (leftFirst : Bool) (ds ds' : List TypeDesc) (hl : ds.length = ds'.length)
    (hsame : ∀ p ∈ ds.zip ds', SameUnboxed p.1 p.2) (ts : List TypeNotation)
    (hm : ds.map TypeDesc.make = ts.map Res.ok) (hs : Sound leftFirst ts) (ls : List (List TypeNotation))
    (hi : insertAllR TypeNotation.dependsOn ts = .ok ls) (ho : Ordered [publicKeyType] ls.flatten)
    (t : Str) (v : PVal) (hT : Typed ts t v) (d : Str) (hv : descriptorOf v = some d) (n n' : Node)
    (hw : envelopeProton [valTree v] (schemaProton (ds.map TypeDesc.proton)) = [n])
    (hw' : envelopeProton [valTree v] (schemaProton (ds'.map TypeDesc.proton)) = [n']) (c c' : Cursor) (hc : c.cur = some n)
    (hc' : c'.cur = some n') :
    (inspect leftFirst c).1 = .ok (parsedText v) ∧ (inspect leftFirst c').1 = .ok (parsedText v) := by
  have e : ds'.map TypeDesc.make = ds.map TypeDesc.make := by
    clear hm hw hw'
    induction ds generalizing ds' with
    | nil => cases ds' with
      | nil => rfl
      | cons => simp at hl
    | cons x xs ih => cases ds' with
      | nil => simp at hl
      | cons y ys =>
        simp only [List.map_cons]
        rw [ih ys (by simpa using hl) (fun p hp => hsame p (by simp [hp])), sameUnboxed_make (hsame (x, y) (by simp))]
  rw [C57_inspect leftFirst ds ts hm hs ls hi ho t v hT d hv n hw c hc,
    C57_inspect leftFirst ds' ts (e.trans hm) hs ls hi ho t v hT d hv n' hw' c' hc']
  exact ⟨rfl, rfl⟩

/-- A class with a list of numbers, with this name for the number type where the class refers to the list, and that one in the
description of the list. -/
private def exBoxedBlob (inField inType : Str) : Node :=
  envelopeTree (.mk .described [sym "f1".toList, .mk .list [.mk .described [sym "f2".toList, .mk .list [.mk (.int 7) []]]]])
    (schemaTree [compositeTree "C".toList [] [] "f1".toList [(FieldDesc.mk "xs".toList "*".toList
        [Spec.listOpen ++ inField ++ ['>']] [] [] true false).tree],
      restrictedTree (Spec.listOpen ++ inType ++ ['>']) [] [] "list".toList "f2".toList []])
    (.mk .null [])

/-- **C66 is false** if the boxed type also occurs where the type is used, which is how a consistent schema would look: the
reader is filed under the name with the primitive and looked for under the name with the boxed type. -/
theorem C66_boxed_blob_violated :
    (inspect true (Cursor.root (exBoxedBlob "int".toList "int".toList))).1 = .ok "{ Parsed : { xs : [ 7 ] } }".toList
    ∧ (inspect true (Cursor.root (exBoxedBlob "int".toList "java.lang.Integer".toList))).1
        = .ok "{ Parsed : { xs : [ 7 ] } }".toList
    ∧ ∀ p ∈ boxed, (inspect true (Cursor.root (exBoxedBlob p.1.toList p.1.toList))).1.Throws := by
  decide +kernel

/-- **C10, of what schema parsing makes.** The element type of a list or an array of a boxed type, and the key and value types of a map, have
a reader for Integer, Float, Long and Double, and for no other boxed type. -/
theorem C10_parsed_violated : ∀ p ∈ boxed, ∀ q ∈ [
      (("java.util.List<" ++ p.1 ++ ">").toList, "list".toList), ((p.1 ++ "[]").toList, "list".toList),
      (("java.util.Map<" ++ p.1 ++ ", " ++ p.1 ++ ">").toList, "map".toList)],
    ∃ r, readNode 2 (restrictedTree q.1 [] [] q.2 "fp".toList []) = .ok (.notation (.restr r)) ∧ r.elems ≠ [] ∧
      ∀ e ∈ r.elems, (∃ x, makePropertyReader e = .ok x) ↔
        p.1 ∈ ["java.lang.Integer", "java.lang.Float", "java.lang.Long", "java.lang.Double"] := by
  have made : ∀ p ∈ boxed, ∀ q ∈ [
      (("java.util.List<" ++ p.1 ++ ">").toList, "list".toList), ((p.1 ++ "[]").toList, "list".toList),
      (("java.util.Map<" ++ p.1 ++ ", " ++ p.1 ++ ">").toList, "map".toList)],
      ∃ r ∈ (match readNode 2 (restrictedTree q.1 [] [] q.2 "fp".toList []) with | .ok (.notation (.restr r)) => [r] | _ => []),
        readNode 2 (restrictedTree q.1 [] [] q.2 "fp".toList []) = .ok (.notation (.restr r)) ∧ r.elems ≠ [] ∧
        ∀ e ∈ r.elems, e = unbox p.1.toList := by decide +kernel
  intro p hp q hq
  obtain ⟨r, -, h1, h2, h3⟩ := made p hp q hq
  refine ⟨r, h1, h2, fun e he => ?_⟩
  rw [h3 e he]
  exact C10_boxed_readable_violated p hp

#print axioms C10_parsed_violated
#print axioms C65_boxed_list_partial
#print axioms C65_boxed_map_partial
#print axioms C65_boxed_array_partial
#print axioms C65_enum_name_partial
#print axioms C65_boxed_names_violated
#print axioms C66_boxed_blob_partial
#print axioms C66_boxed_blob_violated

end Corda.Props
