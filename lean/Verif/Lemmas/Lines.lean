import Verif.Spec.SchemaDump

/-
Reading a page of indented lines back.
-/

namespace Corda
open Spec

/-- A line without its line feed. -/
def rawLine (l : Line) : Str := List.replicate (2 * l.level) ' ' ++ l.text

theorem page_cons_raw (l : Line) (ls : List Line) : page (l :: ls) = rawLine l ++ '\n' :: page ls := by
  simp [page, Line.show, rawLine]

theorem split_at {ch : Char} {a b x y : Str} (ha : ch ∉ a) (hb : ch ∉ b) (h : a ++ ch :: x = b ++ ch :: y) : a = b ∧ x = y := by
  induction a generalizing b with
  | nil =>
    cases b with
    | nil => simpa using h
    | cons c b =>
      simp only [List.nil_append, List.cons_append, List.cons.injEq] at h
      exact absurd (h.1 ▸ List.mem_cons_self) hb
  | cons c a ih =>
    cases b with
    | nil =>
      simp only [List.nil_append, List.cons_append, List.cons.injEq] at h
      exact absurd (h.1 ▸ List.mem_cons_self) ha
    | cons d b =>
      simp only [List.cons_append, List.cons.injEq] at h
      have := ih (fun hm => ha (List.mem_cons_of_mem _ hm)) (fun hm => hb (List.mem_cons_of_mem _ hm)) h.2
      exact ⟨by rw [h.1, this.1], this.2⟩

theorem nl_not_rawLine {l : Line} (h : OneLine l.text) : '\n' ∉ rawLine l := by
  unfold rawLine
  simp only [List.mem_append, List.mem_replicate, not_or]
  exact ⟨fun h => absurd h.2 (by decide), h⟩

theorem page_inj {ls ms : List Line} (hl : ∀ l ∈ ls, OneLine l.text) (hm : ∀ l ∈ ms, OneLine l.text) (h : page ls = page ms) :
    ls.map rawLine = ms.map rawLine := by
  induction ls generalizing ms with
  | nil =>
    cases ms with
    | nil => rfl
    | cons m ms => rw [page_cons_raw] at h; simp [page] at h
  | cons l ls ih =>
    cases ms with
    | nil => rw [page_cons_raw] at h; simp [page] at h
    | cons m ms =>
      rw [page_cons_raw, page_cons_raw] at h
      obtain ⟨h1, h2⟩ := split_at (nl_not_rawLine (hl l List.mem_cons_self)) (nl_not_rawLine (hm m List.mem_cons_self)) h
      simp only [List.map_cons, h1, ih (fun x hx => hl x (List.mem_cons_of_mem _ hx))
        (fun x hx => hm x (List.mem_cons_of_mem _ hx)) h2]

/-! Numbers. -/

theorem dec_inj {a b : Nat} (h : dec a = dec b) : a = b := by
  have := congrArg (fun s => Nat.ofDigitChars 10 s 0) h
  simpa only [dec, Nat.ofDigitChars_ten_toDigits] using this

theorem dec_digit {a : Nat} {c : Char} (h : c ∈ dec a) : c.isDigit = true :=
  Nat.isDigit_of_mem_toDigits (by decide) (by decide) h

theorem dec_oneLine (a : Nat) : '\n' ∉ dec a := fun h => absurd (dec_digit h) (by decide)

theorem dec_head (a : Nat) (t : Str) : (dec a ++ t).head? ≠ some ' ' := by
  have hn : dec a ≠ [] := Nat.toDigits_ne_nil
  cases hd : dec a with
  | nil => exact absurd hd hn
  | cons c cs =>
    simp only [List.cons_append, List.head?_cons, ne_eq, Option.some.injEq]
    rintro rfl
    exact absurd (dec_digit (a := a) (by rw [hd]; exact List.mem_cons_self)) (by decide)

/-- The line is not indented that far. -/
def Shallow (k : Nat) (xs : List Str) : Prop := ∀ s ∈ xs.head?, ¬ List.replicate (2 * k) ' ' <+: s

theorem shallow_nil (k : Nat) : Shallow k [] := by simp [Shallow]

theorem shallow_cons {j k : Nat} (h : j < k) (t : Str) (ht : t.head? ≠ some ' ') (xs : List Str) :
    Shallow k (rawLine ⟨j, t⟩ :: xs) := by
  intro s hs
  simp only [List.head?_cons, Option.mem_def, Option.some.injEq] at hs
  subst hs
  rintro ⟨w, hw⟩
  unfold rawLine at hw
  have e : 2 * k = 2 * j + (2 * (k - j) - 1 + 1) := by omega
  rw [e, ← List.replicate_append_replicate, List.append_assoc] at hw
  have : List.replicate (2 * (k - j) - 1 + 1) ' ' ++ w = t := List.append_cancel_left hw
  rw [List.replicate_succ, List.cons_append] at this
  rw [← this] at ht
  simp at ht

theorem not_shallow {k : Nat} (t : Str) (xs : List Str) : ¬ Shallow k (rawLine ⟨k, t⟩ :: xs) := by
  intro h
  exact h (rawLine ⟨k, t⟩) rfl ⟨t, rfl⟩

theorem rawLine_inj {k : Nat} {s t : Str} (h : rawLine ⟨k, s⟩ = rawLine ⟨k, t⟩) : s = t :=
  List.append_cancel_left h

theorem rawLine_inj_iff {k : Nat} {s t : Str} : rawLine ⟨k, s⟩ = rawLine ⟨k, t⟩ ↔ s = t :=
  ⟨rawLine_inj, fun h => by rw [h]⟩

/-! Fields. -/

theorem bit_inj {a b : Bool} (h : bit a = bit b) : a = b := by
  cases a <;> cases b <;> first | rfl | (revert h; decide)

theorem requires_inj {k : Nat} {rs ss : List Str} (h : (rs.map fun r => (⟨k, r⟩ : Line)).map rawLine
    = (ss.map fun r => (⟨k, r⟩ : Line)).map rawLine) : rs = ss := by
  induction rs generalizing ss with
  | nil => cases ss <;> simp at h ⊢
  | cons r rs ih =>
    cases ss with
    | nil => simp at h
    | cons s ss =>
      simp only [List.map_cons, List.cons.injEq] at h
      rw [rawLine_inj h.1, ih h.2]

theorem field_inj {k : Nat} {f g : FieldInfo} {xs ys : List Str}
    (h : (fieldLines k f).map rawLine ++ xs = (fieldLines k g).map rawLine ++ ys) : f.bare = g.bare ∧ xs = ys := by
  unfold fieldLines headLines at h
  simp only [List.map_append, List.map_cons, List.map_nil, List.append_assoc, List.cons_append, List.nil_append, List.cons.injEq,
    true_and, rawLine_inj_iff, List.append_cancel_left_eq] at h
  obtain ⟨h1, h2, h3, h⟩ := h
  have hl := dec_inj h3
  obtain ⟨h4, h⟩ := List.append_inj h (by simp [hl])
  simp only [List.cons.injEq, rawLine_inj_iff, List.append_cancel_left_eq] at h
  obtain ⟨h5, h6, h7, h8, h9⟩ := h
  refine ⟨?_, h9⟩
  obtain ⟨a1, a2, a3, a4, a5, a6, a7⟩ := f
  obtain ⟨b1, b2, b3, b4, b5, b6, b7⟩ := g
  simp only at h1 h2 h4 h5 h6 h7 h8
  simp only [FieldInfo.bare, h1, h2, requires_inj h4, h5, h6, bit_inj h7, bit_inj h8]

theorem fields_inj {k n m : Nat} {fs gs : List FieldInfo} {xs ys : List Str} (hx : Shallow k xs) (hy : Shallow k ys)
    (h : (fieldsLines k n fs).map rawLine ++ xs = (fieldsLines k m gs).map rawLine ++ ys) :
    fs.map FieldInfo.bare = gs.map FieldInfo.bare ∧ xs = ys := by
  unfold fieldsLines at h
  generalize k + 1 = k1 at h
  generalize 1 = i at h
  induction fs generalizing gs i with
  | nil =>
    cases gs with
    | nil => simpa using h
    | cons g gs =>
      simp only [List.zipIdx_nil, List.flatMap_nil, List.map_nil, List.nil_append, List.zipIdx_cons, List.flatMap_cons,
        List.cons_append, List.map_cons] at h
      rw [h] at hx
      exact absurd hx (not_shallow _ _)
  | cons f fs ih =>
    cases gs with
    | nil =>
      simp only [List.zipIdx_nil, List.flatMap_nil, List.map_nil, List.nil_append, List.zipIdx_cons, List.flatMap_cons,
        List.cons_append, List.map_cons] at h
      rw [← h] at hy
      exact absurd hy (not_shallow _ _)
    | cons g gs =>
      simp only [List.zipIdx_cons, List.flatMap_cons, List.cons_append, List.map_cons, List.cons.injEq, List.map_append,
        List.append_assoc] at h
      obtain ⟨h1, h2⟩ := field_inj h.2
      obtain ⟨h3, h4⟩ := ih _ h2
      exact ⟨by rw [List.map_cons, List.map_cons, h1, h3], h4⟩

/-! Types. -/

theorem words_inj {pre : Str} {ps qs : List Str} (hp : ∀ p ∈ ps, ' ' ∉ p) (hq : ∀ p ∈ qs, ' ' ∉ p)
    (h : ps.flatMap (fun p => pre ++ p ++ " ".toList) ++ "]".toList = qs.flatMap (fun p => pre ++ p ++ " ".toList) ++ "]".toList) :
    ps = qs := by
  have hb : " ".toList = [' '] := by decide
  rw [hb] at h
  induction ps generalizing qs with
  | nil =>
    cases qs with
    | nil => rfl
    | cons q qs =>
      have := congrArg List.length h
      simp at this
      omega
  | cons p ps ih =>
    cases qs with
    | nil =>
      have := congrArg List.length h
      simp at this
      omega
    | cons q qs =>
      simp only [List.flatMap_cons, List.append_assoc, List.append_cancel_left_eq, List.cons_append, List.nil_append] at h
      obtain ⟨h1, h2⟩ := split_at (hp p List.mem_cons_self) (hq q List.mem_cons_self) h
      simp only [List.append_assoc, List.cons_append, List.nil_append] at ih
      rw [h1, ih (fun x hx => hp x (List.mem_cons_of_mem _ hx)) (fun x hx => hq x (List.mem_cons_of_mem _ hx)) h2]

theorem object_inj {k : Nat} {a b : Str} {xs ys : List Str}
    (h : (objectLines k a).map rawLine ++ xs = (objectLines k b).map rawLine ++ ys) : a = b ∧ xs = ys := by
  unfold objectLines headLines at h
  simpa only [List.map_append, List.map_cons, List.map_nil, List.append_assoc, List.cons_append, List.nil_append, List.cons.injEq,
    true_and, rawLine_inj_iff, List.append_cancel_left_eq] using h

theorem type_inj {k : Nat} {t u : TypeInfo} (ht : t.OneLine) (hu : u.OneLine) {xs ys : List Str}
    (hx : Shallow (k + 3) xs) (hy : Shallow (k + 3) ys)
    (h : (typeLines k t).map rawLine ++ xs = (typeLines k u).map rawLine ++ ys) : t.bare = u.bare ∧ xs = ys := by
  cases t with
  | composite n1 l1 p1 f1 fs1 =>
    cases u with
    | composite n2 l2 p2 f2 fs2 =>
      unfold typeLines headLines at h
      simp only [List.map_append, List.map_cons, List.map_nil, List.append_assoc, List.cons_append, List.nil_append,
        List.cons.injEq, true_and, rawLine_inj_iff, List.append_cancel_left_eq] at h
      obtain ⟨h1, h2, h3, h⟩ := h
      obtain ⟨h4, h⟩ := object_inj h
      simp only [List.cons.injEq, true_and] at h
      obtain ⟨h5, h6⟩ := fields_inj hx hy h
      refine ⟨?_, h6⟩
      have h2' := List.append_cancel_right h2
      have h3' := words_inj (pre := List.replicate (2 * (k + 2)) ' ') (fun p hp => (ht.2.2.1 p hp).2)
        (fun p hp => (hu.2.2.1 p hp).2) (by simpa only [List.append_assoc] using h3)
      simp only [TypeInfo.bare, h1, h2', h3', h4, h5]
    | restricted n2 l2 p2 s2 f2 c2 =>
      exfalso
      unfold typeLines headLines at h
      simp only [List.map_append, List.map_cons, List.map_nil, List.append_assoc, List.cons_append, List.nil_append,
        List.cons.injEq, true_and, rawLine_inj_iff, List.append_cancel_left_eq] at h
      exact absurd h.1 (by decide +kernel)
  | restricted n1 l1 p1 s1 f1 c1 =>
    cases u with
    | composite n2 l2 p2 f2 fs2 =>
      exfalso
      unfold typeLines headLines at h
      simp only [List.map_append, List.map_cons, List.map_nil, List.append_assoc, List.cons_append, List.nil_append,
        List.cons.injEq, true_and, rawLine_inj_iff, List.append_cancel_left_eq] at h
      exact absurd h.1 (by decide +kernel)
    | restricted n2 l2 p2 s2 f2 c2 =>
      unfold typeLines headLines at h
      simp only [List.map_append, List.map_cons, List.map_nil, List.append_assoc, List.cons_append, List.nil_append,
        List.cons.injEq, true_and, rawLine_inj_iff, List.append_cancel_left_eq] at h
      obtain ⟨h1, h2, h3, h4, h⟩ := h
      obtain ⟨h5, h6⟩ := object_inj h
      refine ⟨?_, h6⟩
      have h3' := words_inj (pre := []) (fun p hp => (ht.2.2.1 p hp).2)
        (fun p hp => (hu.2.2.1 p hp).2) (by simpa only [List.nil_append] using h3)
      simp only [TypeInfo.bare, h1, h2, h3', h4, h5]

theorem types_inj {k i n : Nat} {ts us : List TypeInfo} (ht : ∀ t ∈ ts, t.OneLine) (hu : ∀ t ∈ us, t.OneLine)
    (hl : ts.length = us.length) {xs ys : List Str} (hx : Shallow (k + 4) xs) (hy : Shallow (k + 4) ys)
    (h : (typesLines k i n ts).map rawLine ++ xs = (typesLines k i n us).map rawLine ++ ys) :
    ts.map TypeInfo.bare = us.map TypeInfo.bare ∧ xs = ys := by
  unfold typesLines at h
  obtain ⟨k1, hk⟩ : ∃ k1, k + 1 = k1 := ⟨_, rfl⟩
  rw [hk] at h
  have sh : ∀ (vs : List TypeInfo) (j : Nat) (zs : List Str), Shallow (k + 4) zs →
      Shallow (k + 4) (((vs.zipIdx j).flatMap fun t => (⟨k, dec i ++ ":".toList ++ outOf t.2 n ++ " ".toList⟩ : Line)
        :: typeLines k1 t.1).map rawLine ++ zs) := by
    intro vs j zs hz
    cases vs with
    | nil => exact hz
    | cons v vs =>
      simp only [List.zipIdx_cons, List.flatMap_cons, List.cons_append, List.map_cons]
      refine shallow_cons (by omega) _ ?_ _
      simp only [List.append_assoc]
      exact dec_head _ _
  generalize 1 = j at h
  induction ts generalizing us j with
  | nil =>
    cases us with
    | nil => simpa using h
    | cons u us => simp at hl
  | cons t ts ih =>
    cases us with
    | nil => simp at hl
    | cons u us =>
      simp only [List.zipIdx_cons, List.flatMap_cons, List.cons_append, List.map_cons, List.cons.injEq, List.map_append,
        List.append_assoc] at h
      simp only [List.append_assoc] at sh ih
      obtain ⟨h1, h2⟩ := type_inj (ht t List.mem_cons_self) (hu u List.mem_cons_self)
        (by subst hk; exact sh ts _ _ hx) (by subst hk; exact sh us _ _ hy) h.2
      obtain ⟨h3, h4⟩ := ih (fun x hx => ht x (List.mem_cons_of_mem _ hx)) (fun x hx => hu x (List.mem_cons_of_mem _ hx))
        (by simpa using hl) _ h2
      exact ⟨by rw [List.map_cons, List.map_cons, h1, h3], h4⟩

theorem lists_inj {k n : Nat} {ts us : List (List TypeInfo)} (ht : ∀ l ∈ ts, ∀ t ∈ l, t.OneLine)
    (hu : ∀ l ∈ us, ∀ t ∈ l, t.OneLine) (hl : ts.length = us.length)
    (h : (listsLines k n ts).map rawLine = (listsLines k n us).map rawLine) :
    ts.map (·.map TypeInfo.bare) = us.map (·.map TypeInfo.bare) := by
  unfold listsLines at h
  obtain ⟨k1, hk⟩ : ∃ k1, k + 1 = k1 := ⟨_, rfl⟩
  rw [hk] at h
  have sh : ∀ (vs : List (List TypeInfo)) (j : Nat),
      Shallow (k + 5) (((vs.zipIdx j).flatMap fun ts => (⟨k, outOf ts.2 n ++ " list: entries: ".toList ++ dec ts.1.length⟩ : Line)
        :: typesLines k1 ts.2 ts.1.length ts.1).map rawLine) := by
    intro vs j
    cases vs with
    | nil => exact shallow_nil _
    | cons v vs =>
      simp only [List.zipIdx_cons, List.flatMap_cons, List.cons_append, List.map_cons]
      refine shallow_cons (by omega) _ ?_ _
      simp only [outOf, List.append_assoc]
      exact dec_head _ _
  generalize 1 = j at h
  induction ts generalizing us j with
  | nil =>
    cases us with
    | nil => rfl
    | cons u us => simp at hl
  | cons t ts ih =>
    cases us with
    | nil => simp at hl
    | cons u us =>
      simp only [List.zipIdx_cons, List.flatMap_cons, List.cons_append, List.map_cons, List.cons.injEq, List.map_append,
        rawLine_inj_iff, List.append_cancel_left_eq] at h
      have hd := dec_inj h.1
      rw [hd] at h
      obtain ⟨h1, h2⟩ := types_inj (ht t List.mem_cons_self) (hu u List.mem_cons_self) hd
        (by subst hk; exact sh ts _) (by subst hk; exact sh us _) h.2
      rw [List.map_cons, List.map_cons, h1, ih (fun x hx => ht x (List.mem_cons_of_mem _ hx))
        (fun x hx => hu x (List.mem_cons_of_mem _ hx)) (by simpa using hl) _ h2]

/-! No line feeds inside lines. -/

theorem oneLine_append {a b : Str} : OneLine (a ++ b) ↔ OneLine a ∧ OneLine b := by
  unfold OneLine; simp [not_or]

/-- No line has a line feed inside. -/
def Flat (ls : List Line) : Prop := ∀ l ∈ ls, OneLine l.text

theorem flat_nil : Flat [] := by simp [Flat]
theorem flat_cons {l : Line} {ls : List Line} : Flat (l :: ls) ↔ OneLine l.text ∧ Flat ls := by simp [Flat]
theorem flat_append {a b : List Line} : Flat (a ++ b) ↔ Flat a ∧ Flat b := by
  simp only [Flat, List.mem_append]
  exact ⟨fun h => ⟨fun l hl => h l (.inl hl), fun l hl => h l (.inr hl)⟩,
    fun h l hl => hl.elim (h.1 l) (h.2 l)⟩
theorem flat_flatMap {α : Type} {as : List α} {f : α → List Line} (h : ∀ a ∈ as, Flat (f a)) : Flat (as.flatMap f) := by
  intro l hl
  obtain ⟨a, ha, hl⟩ := List.mem_flatMap.mp hl
  exact h a ha l hl

theorem oneLine_replicate (n : Nat) : OneLine (List.replicate n ' ') := by
  unfold OneLine
  simp only [List.mem_replicate]
  exact fun h => absurd h.2 (by decide)

theorem oneLine_outOf (a b : Nat) : OneLine (outOf a b) := by
  unfold outOf
  simp only [oneLine_append]
  exact ⟨⟨⟨dec_oneLine _, by unfold OneLine; decide⟩, dec_oneLine _⟩, by unfold OneLine; decide⟩

theorem oneLine_bit (b : Bool) : OneLine (bit b) := by cases b <;> (unfold OneLine; decide)

theorem oneLine_flatMap {as : List Str} {f : Str → Str} (h : ∀ a ∈ as, OneLine (f a)) : OneLine (as.flatMap f) := by
  intro hm
  obtain ⟨a, ha, hm⟩ := List.mem_flatMap.mp hm
  exact h a ha hm

theorem flat_head {k n m : Nat} {name : Str} (h : OneLine name) : Flat (headLines k n name m) := by
  unfold headLines
  simp only [flat_cons, oneLine_append]
  and_intros <;> first | exact flat_nil | exact h | exact dec_oneLine _ | (unfold OneLine; decide +kernel)

theorem flat_object {fp : Str} (hf : OneLine fp) (k : Nat) : Flat (objectLines k fp) := by
  unfold objectLines
  simp only [flat_append, flat_cons, oneLine_append]
  and_intros <;> first | exact flat_nil | exact hf | (unfold OneLine; decide +kernel) | skip
  exact flat_head (by unfold OneLine; decide +kernel)

theorem flat_field {f : FieldInfo} (h : f.OneLine) (k : Nat) : Flat (fieldLines k f) := by
  obtain ⟨h1, h2, h3, h4, h5⟩ := h
  unfold fieldLines
  simp only [flat_append, flat_cons, oneLine_append]
  and_intros
  any_goals first | exact flat_nil | exact h1 | exact h2 | exact h4 | exact h5 | exact dec_oneLine _ | exact oneLine_bit _
  any_goals first | exact flat_head (by unfold OneLine; decide +kernel) | (unfold OneLine; decide +kernel)
  intro l hl
  obtain ⟨r, hr, rfl⟩ := List.mem_map.mp hl
  exact h3 r hr

theorem flat_type {t : TypeInfo} (h : t.OneLine) (k : Nat) : Flat (typeLines k t) := by
  have hb : OneLine " ".toList := by unfold OneLine; decide
  cases t with
  | composite name label provides fp fields =>
    obtain ⟨h1, h2, h3, h4, h5⟩ := h
    unfold typeLines
    simp only [flat_append, flat_cons, oneLine_append]
    and_intros
    any_goals first | exact flat_nil | exact h1 | exact h2 | exact flat_object h4 _
    any_goals first | exact flat_head (by unfold OneLine; decide +kernel) | (unfold OneLine; decide +kernel)
    · refine oneLine_flatMap fun p hp => ?_
      simp only [oneLine_append]
      exact ⟨⟨oneLine_replicate _, (h3 p hp).1⟩, hb⟩
    · refine flat_flatMap fun f hf => ?_
      rw [flat_cons]
      exact ⟨oneLine_outOf _ _, flat_field (h5 _ (List.fst_mem_of_mem_zipIdx hf)) _⟩
  | restricted name label provides source fp choices =>
    obtain ⟨h1, h2, h3, h4, h5⟩ := h
    unfold typeLines
    simp only [flat_append, flat_cons, oneLine_append]
    and_intros
    any_goals first | exact flat_nil | exact h1 | exact h2 | exact h4 | exact flat_object h5 _
    any_goals first | exact flat_head (by unfold OneLine; decide +kernel) | (unfold OneLine; decide +kernel)
    · refine oneLine_flatMap fun p hp => ?_
      simp only [oneLine_append]
      exact ⟨(h3 p hp).1, hb⟩

theorem flat_envelope {fp : Str} {lists : List (List TypeInfo)}
    (h : ∀ l ∈ lists, ∀ t ∈ l, t.OneLine) (n : Nat) : Flat (envelopeLines fp lists n) := by
  unfold envelopeLines schemaLines
  simp only [flat_append, flat_cons, oneLine_append]
  and_intros
  any_goals first | exact flat_nil | exact dec_oneLine _
  any_goals first | exact flat_head (by unfold OneLine; decide +kernel) | (unfold OneLine; decide +kernel)
  refine flat_flatMap fun l hl => ?_
  have hl := List.fst_mem_of_mem_zipIdx hl
  rw [flat_cons]
  simp only [oneLine_append]
  refine ⟨⟨⟨oneLine_outOf _ _, by unfold OneLine; decide +kernel⟩, dec_oneLine _⟩, flat_flatMap fun t ht => ?_⟩
  rw [flat_cons]
  simp only [oneLine_append]
  exact ⟨⟨⟨⟨dec_oneLine _, by unfold OneLine; decide +kernel⟩, oneLine_outOf _ _⟩, by unfold OneLine; decide +kernel⟩,
    flat_type (h _ hl _ (List.fst_mem_of_mem_zipIdx ht)) _⟩

theorem envelope_inj {fp fp' : Str} {lists lists' : List (List TypeInfo)} {n n' : Nat}
    (h : ∀ l ∈ lists, ∀ t ∈ l, t.OneLine) (h' : ∀ l ∈ lists', ∀ t ∈ l, t.OneLine)
    (he : page (envelopeLines fp lists n) = page (envelopeLines fp' lists' n')) :
    n = n' ∧ fp.length = fp'.length ∧ lists.map (·.map TypeInfo.bare) = lists'.map (·.map TypeInfo.bare) := by
  have hm := page_inj (flat_envelope h n) (flat_envelope h' n') he
  unfold envelopeLines schemaLines headLines at hm
  simp only [List.map_append, List.map_cons, List.map_nil, List.append_assoc, List.cons_append, List.nil_append,
    List.cons.injEq, true_and, rawLine_inj_iff, List.append_cancel_left_eq] at hm
  obtain ⟨h1, h2, h3, h4⟩ := hm
  have hl := dec_inj h3
  rw [hl] at h4
  exact ⟨dec_inj h1, dec_inj h2, lists_inj h h' hl h4⟩

end Corda
