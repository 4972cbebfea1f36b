import Verif.Lemmas.BulkAvro

/-
How long the raw text of a schema is.
-/

namespace Corda
open Spec

/-- How long a line is. -/
private def width (l : Line) : Nat := 2 * l.level + l.text.length + 1

private theorem width_mk (k : Nat) (t : Str) : width ⟨k, t⟩ = 2 * k + t.length + 1 := rfl

/-- How long lines are together. -/
private def extent (ls : List Line) : Nat := (ls.map width).sum

private theorem page_length (ls : List Line) : (page ls).length = extent ls := by
  unfold page extent
  rw [List.length_flatMap]
  congr 1
  refine List.map_congr_left fun l _ => ?_
  simp only [Line.show, width, List.length_append, List.length_replicate, List.length_cons, List.length_nil]

private theorem extent_nil : extent [] = 0 := rfl
private theorem extent_cons (l : Line) (ls : List Line) : extent (l :: ls) = width l + extent ls := rfl
private theorem extent_append (a b : List Line) : extent (a ++ b) = extent a + extent b := by simp [extent]
private theorem extent_flatten (l : List (List Line)) : extent l.flatten = (l.map extent).sum := by
  induction l with
  | nil => rfl
  | cons a l ih => rw [List.flatten_cons, extent_append, ih, List.map_cons, List.sum_cons]

private theorem outOf_length (a b : Nat) : (outOf a b).length ≤ a + b + 4 := by
  have key : ∀ x y : Str, x.length = 1 → y.length = 1 → (dec a ++ x ++ dec b ++ y).length ≤ a + b + 4 := by
    intro x y hx hy
    have h1 := dec_length a
    have h2 := dec_length b
    simp only [List.length_append]; omega
  exact key _ _ rfl rfl

private theorem elementName_length (id : Nat) : (elementName id).length ≤ 21 := by
  unfold elementName
  have : ∀ {c : Prop} [Decidable c] {a b : Str}, a.length ≤ 21 → b.length ≤ 21 → (if c then a else b).length ≤ 21 := by
    intro c _ a b h1 h2; split <;> assumption
  iterate 11 refine this (by decide) ?_
  decide

private theorem dec_ulong (id : Nat) (is : List Node) : (dec id).length + 1 ≤ mass (.mk (.ulong id) is) := by
  have := ink_lt (.mk (.ulong id) is)
  rw [show dec id = decimalNat id from natStr_eq id]
  exact this

private theorem dec_low (id : Nat) : (dec (id % 2 ^ 32)).length ≤ 10 := by
  rw [show dec (id % 2 ^ 32) = decimalNat (id % 2 ^ 32) from natStr_eq _]
  exact length_decimalNat (k := 9) (Nat.lt_trans (Nat.mod_lt _ (by decide)) (by decide))

private theorem head_extent (k id parts : Nat) : extent (elementHead k id parts) ≤ 6 * k + (dec id).length + parts + 90 := by
  have h1 := dec_low id
  have h2 := elementName_length id
  have h3 := dec_length parts
  have key : ∀ a b c d e : Str, a.length = 11 → b.length = 7 → c.length = 4 → d.length = 4 → e.length = 16 →
      extent [⟨k, a⟩, ⟨k + 1, b ++ dec id ++ c ++ dec (id % 2 ^ 32) ++ d ++ elementName id⟩, ⟨k + 1, e ++ dec parts⟩]
        ≤ 6 * k + (dec id).length + parts + 90 := by
    intros
    simp only [extent_cons, extent_nil, width_mk, List.length_append]
    omega
  exact key _ _ _ _ _ rfl rfl rfl rfl rfl

/-- Lines with a name and a text. -/
private theorem two (a s : Str) {n : Nat} (h : a.length = n) : (a ++ s).length = n + s.length := by
  rw [List.length_append, h]

private theorem briefType_length (t : PnType) : (briefType t).length ≤ 20 := by cases t <;> decide

private theorem brief_length (n : Node) : (brief n).length ≤ 40 + 3 * mass n := by
  obtain ⟨a, ks⟩ := n
  have h1 := briefType_length a.type
  have h2 := ink_lt (.mk a ks)
  simp only [Node.val] at h2
  unfold brief
  simp only [Node.val, Node.kids, List.length_append]
  suffices (briefValue ks.length a).length ≤ 20 + 3 * mass (.mk a ks) by omega
  have hz : ∀ x, x = ([] : Str) → x.length ≤ 20 + 3 * mass (.mk a ks) := by intro x hx; rw [hx]; simp
  cases a with
  | bool b =>
    have : (briefValue ks.length (.bool b)).length ≤ 20 := by cases b <;> (simp only [briefValue]; decide)
    omega
  | int n =>
    simp only [briefValue, List.length_cons, List.length_append]
    rw [ink] at h2
    unfold decimal at h2
    rw [show dec n.natAbs = decimalNat n.natAbs from natStr_eq _]
    split <;> rename_i hn
    · rw [if_pos hn] at h2; simp only [List.length_cons, List.length_nil] at h2 ⊢; omega
    · rw [if_neg hn] at h2; simp only [List.length_nil]; omega
  | ulong n =>
    simp only [briefValue, List.length_cons]
    rw [ink] at h2
    rw [show dec n = decimalNat n from natStr_eq _]
    omega
  | string s =>
    simp only [briefValue, List.length_cons]
    rw [ink] at h2
    omega
  | symbol s =>
    simp only [briefValue, List.length_cons, List.length_append]
    rw [ink] at h2
    have h3 := dec_length s.length
    have h4 : (s.flatMap fun c => [c, ' ']).length = 2 * s.length := by
      rw [List.length_flatMap]
      clear h1 h2 h3 hz
      induction s with
      | nil => rfl
      | cons c s ih => rw [List.map_cons, List.sum_cons, ih]; simp only [List.length_cons, List.length_nil]; omega
    have h5 : briefArrow.length = 7 := by decide
    omega
  | list =>
    simp only [briefValue, List.length_append]
    have h3 := dec_length ks.length
    have h4 := length_le_masses ks
    have h5 := masses_lt (a := .list) (ks := ks) (by simp)
    have h6 : briefEntries.length = 11 := by decide
    omega
  | _ => exact hz _ rfl

/-- Strings in a list. -/
private theorem strings_mass {n : Option Node} {l : List Str} (h : eachOf (stringAt false) n = .ok l) :
    (l.map fun s => s.length + 1).sum ≤ massOf n ∧ l.length ≤ massOf n := by
  unfold eachOf at h
  have key : ∀ (ks : List Node) (l : List Str), all (ks.map fun m => stringAt false (some m)) = .ok l →
      (l.map fun s => s.length + 1).sum ≤ masses ks ∧ l.length = ks.length ∧ ∀ k ∈ ks, solid k = true := by
    intro ks
    induction ks with
    | nil =>
      intro l h
      simp only [List.map_nil, all, Res.ok.injEq] at h
      subst h
      simp [masses]
    | cons k ks ih =>
      intro l h
      rw [List.map_cons, all] at h
      replace h := Res.bind_eq_ok.mp h
      obtain ⟨x, hx, h⟩ := h
      replace h := Res.bind_eq_ok.mp h
      obtain ⟨xs, hxs, h⟩ := h
      simp only [Res.pure_eq, Res.ok.injEq] at h
      subst h
      obtain ⟨h1, h2, h3⟩ := ih xs hxs
      have h4 := string_mass hx
      simp only [massOf] at h4
      rw [List.map_cons, List.sum_cons, masses, List.length_cons, List.length_cons]
      refine ⟨by omega, by omega, ?_⟩
      intro m hm
      rcases List.mem_cons.mp hm with rfl | hm
      · simp only [stringAt, valueOf, Option.map_some] at hx
        split at hx
        · next y e => simp only [Option.some.injEq] at e; simp only [solid, e]
        · simp at hx
        · cases hx
      · exact h3 m hm
  obtain ⟨h1, h2, h3⟩ := key _ _ h
  have h4 := masses_kids h3
  have h5 := length_le_masses (kidsOf n)
  omega

private theorem provides_length {k : Nat} (l : List Str) : (l.flatMap fun p => List.replicate (2 * k) ' ' ++ p ++ " ".toList).length
    = (l.map fun s => s.length + 1).sum + 2 * k * l.length := by
  have h : (" ".toList).length = 1 := rfl
  induction l with
  | nil => simp
  | cons p l ih =>
    rw [List.flatMap_cons, List.length_append, ih, List.map_cons, List.sum_cons, List.length_cons, Nat.mul_add_one]
    simp only [List.length_append, List.length_replicate, h]
    omega

private theorem provides_length' (l : List Str) : (l.flatMap fun p => p ++ " ".toList).length
    = (l.map fun s => s.length + 1).sum := by
  have h : (" ".toList).length = 1 := rfl
  induction l with
  | nil => simp
  | cons p l ih =>
    rw [List.flatMap_cons, List.length_append, ih, List.map_cons, List.sum_cons]
    simp only [List.length_append, h]

private theorem requires_extent (k : Nat) (l : List Str) : extent (l.map fun r => ⟨k, r⟩) = (l.map fun s => s.length + 1).sum + 2 * k * l.length := by
  induction l with
  | nil => simp [extent]
  | cons p l ih =>
    rw [List.map_cons, extent_cons, ih, List.map_cons, List.sum_cons, List.length_cons, Nat.mul_add_one, width_mk]
    omega

/-- What is known of the elements inside a tree of size `M`. -/
private def Limited (D M depth : Nat) (root : Node) (rec : Lines) : Prop :=
  ∀ k n ls, Inside n root → n.val ≠ .array → k + 4 * depth + M ≤ D → rec k (some n) = .ok ls →
    extent ls + (4 * D + 60) ≤ (20 * D + 600) * mass n ∧ ∃ m, nth n.kids 0 = some m ∧ m.val ≠ .described

private theorem limited_element {D M depth : Nat} {root : Node} {rec : Lines} (h : Limited D M depth root rec) {k : Nat} {n : Option Node}
    {ls : List Line} (hi : ∀ m, n = some m → Inside m root) (hD : k + 4 * depth + M ≤ D) (hs : elementLines rec k n = .ok ls) :
    ∃ m, n = some m ∧ extent ls + (4 * D + 60) ≤ (20 * D + 600) * mass m ∧ solid m = true ∧ m.val = .described := by
  unfold elementLines at hs
  cases n with
  | none => cases hs
  | some m =>
    split at hs
    · next e =>
      simp only [valueOf, Option.map_some, Option.some.injEq] at e
      obtain ⟨h1, m', h2, -⟩ := h k m ls (hi m rfl) (by rw [e]; simp) hD hs
      exact ⟨m, rfl, h1, solid_kid h2, e⟩
    · cases hs

/-- Numbered elements below each other, each with a line in front. -/
private theorem numbered_limited {D depth k : Nat} {root : Node} {rec : Lines} (h : Limited D (mass root) depth root rec)
    {p : Node} (hp : Inside p root) (hps : solid p = true ∨ p.kids = []) (hD : k + 4 * depth + mass root ≤ D) (g : Nat → Line)
    (hg : ∀ i, i ≤ p.kids.length → p.kids.length ≤ mass root → width (g i) ≤ 4 * D + 60)
    {l : List (List Line)} (hl : numberedOf (fun i m => do
      let ls ← elementLines rec k m
      pure (g i :: ls)) (some p) = .ok l) :
    (l.map extent).sum ≤ (20 * D + 600) * masses p.kids ∧ ∀ m ∈ p.kids, solid m = true ∧ m.val = .described := by
  have one : ∀ i m x, m ∈ p.kids → (do let ls ← elementLines rec k (some m); pure (g i :: ls)) = Res.ok x →
      ∃ ls, x = g i :: ls ∧ extent ls + (4 * D + 60) ≤ (20 * D + 600) * mass m ∧ solid m = true ∧ m.val = .described := by
    intro i m x hm hx
    replace hx := Res.bind_eq_ok.mp hx
    obtain ⟨y, hy, hx⟩ := hx
    simp only [Res.pure_eq, Res.ok.injEq] at hx
    subst hx
    obtain ⟨m', hm', h3, h4⟩ := limited_element h (n := some m) (fun m' e => by cases e; exact inside_trans (inside_kid hm) hp) hD hy
    cases hm'
    exact ⟨y, rfl, h3, h4⟩
  have hP := (numberedOf_sum (W := 0) (fun m => solid m = true ∧ m.val = .described) (fun _ : List Line => 0) (n := some p)
    (fun i m x _ hm hx => by
      obtain ⟨ls, -, -, h4⟩ := one i m x hm hx
      exact ⟨by omega, h4⟩) hl).2
  change ∀ m ∈ p.kids, _ at hP
  have hlen : p.kids.length ≤ mass root := by
    rcases hps with hs | hs
    · have h1 := masses_solid fun m hm => (hP m hm).1
      have h2 := length_le_masses p.kids
      have h3 := solid_inside hp hs
      omega
    · rw [hs]; simp
  refine ⟨?_, hP⟩
  refine (numberedOf_sum (W := 20 * D + 600) (fun _ => True) extent (n := some p) (fun i m x hi hm hx => ?_) hl).1
  obtain ⟨ls, rfl, h3, -⟩ := one i m x hm hx
  have := hg i hi hlen
  rw [extent_cons]
  exact ⟨by omega, trivial⟩

private theorem object_limited {D k : Nat} {ps : List Node} {ls : List Line} (hD : k ≤ D) (h : objectShown (k + 2) ps = .ok ls) :
    extent ls ≤ (20 * D + 600) * (masses ps + 1) := by
  unfold objectShown at h
  replace h := Res.bind_eq_ok.mp h
  obtain ⟨s, hs, h⟩ := h
  simp only [Res.pure_eq, Res.ok.injEq] at h
  subst h
  have h1 := symbol_mass hs
  have h2 := massOf_nth ps 0
  have h3 : (briefOf (nth ps 1)).length ≤ 40 + 3 * masses ps := by
    have h4 := massOf_nth ps 1
    cases hn : nth ps 1 with
    | none => simp [briefOf]
    | some m =>
      have h5 := brief_length m
      rw [hn, massOf] at h4
      simp only [briefOf]
      omega
  have h4 : (20 * D + 600) * (masses ps + 1) = 20 * (D * masses ps) + 600 * masses ps + 20 * D + 600 := by
    rw [Nat.mul_add_one, Nat.add_mul, Nat.mul_assoc]; omega
  rw [h4]
  simp only [extent_cons, extent_nil, width_mk]
  rw [two _ s (n := 5) rfl, two _ (briefOf _) (n := 5) rfl]
  omega

private theorem field_limited {D k : Nat} {ps : List Node} {ls : List Line} (hD : k ≤ D) (h : fieldShown (k + 2) ps = .ok ls) :
    extent ls ≤ (20 * D + 600) * (masses ps + 1) := by
  unfold fieldShown at h
  replace h := Res.bind_eq_ok.mp h
  obtain ⟨name, h0, h⟩ := h
  replace h := Res.bind_eq_ok.mp h
  obtain ⟨type, h1, h⟩ := h
  replace h := Res.bind_eq_ok.mp h
  obtain ⟨requires, h2, h⟩ := h
  replace h := Res.bind_eq_ok.mp h
  obtain ⟨default, h3, h⟩ := h
  replace h := Res.bind_eq_ok.mp h
  obtain ⟨label, h4, h⟩ := h
  replace h := Res.bind_eq_ok.mp h
  obtain ⟨mandatory, h5, h⟩ := h
  replace h := Res.bind_eq_ok.mp h
  obtain ⟨multiple, h6, h⟩ := h
  simp only [Res.pure_eq, Res.ok.injEq] at h
  subst h
  have g0 := string_mass h0
  have g1 := string_mass h1
  have g3 := string_mass h3
  have g4 := string_mass h4
  obtain ⟨g2, g2'⟩ := strings_mass h2
  have m0 := massOf_nth ps 0
  have m1 := massOf_nth ps 1
  have m2 := massOf_nth ps 2
  have m3 := massOf_nth ps 3
  have m4 := massOf_nth ps 4
  have b1 : ∀ b, (bit b).length = 1 := by intro b; cases b <;> rfl
  have g7 : (listElements (nth ps 2)).length ≤ masses ps := by
    refine Nat.le_trans ?_ m2
    cases hn : nth ps 2 with
    | none => simp [listElements, valueOf]
    | some m =>
      obtain ⟨a, js⟩ := m
      unfold listElements
      split
      · next e =>
        simp only [valueOf, Option.map_some, Node.val, Option.some.injEq] at e
        subst e
        have e1 := masses_lt (a := .list) (ks := js) (by simp)
        have e2 := length_le_masses js
        simp only [kidsOf, Node.kids, massOf]
        omega
      · simp
  have g8 := dec_length (listElements (nth ps 2)).length
  have hk : 2 * (k + 2 + 1) * requires.length ≤ 2 * (D + 3) * masses ps := Nat.mul_le_mul (by omega) (by omega)
  have hk' : 2 * (D + 3) * masses ps = 2 * (D * masses ps) + 6 * masses ps := by rw [Nat.mul_assoc, Nat.add_mul]; omega
  have hW : (20 * D + 600) * (masses ps + 1) = 20 * (D * masses ps) + 600 * masses ps + 20 * D + 600 := by
    rw [Nat.mul_add_one, Nat.add_mul, Nat.mul_assoc]; omega
  rw [hW]
  simp only [extent_append, extent_cons, extent_nil, width_mk, requires_extent]
  rw [two _ name (n := 19) rfl, two _ type (n := 19) rfl, two _ default (n := 22) rfl, two _ label (n := 20) rfl,
    two _ (bit mandatory) (n := 25) rfl, two _ (bit multiple) (n := 24) rfl, two _ (dec _) (n := 30) rfl, b1, b1]
  omega

private theorem restricted_limited {D depth k : Nat} {root : Node} {rec : Lines} {ps : List Node} {ls : List Line}
    (hrec : Limited D (mass root) depth root rec) (hps : ∀ i m, nth ps i = some m → Inside m root) (hD : k + 4 * depth + 4 + mass root ≤ D)
    (h : restrictedShown rec (k + 2) ps = .ok ls) : extent ls ≤ (20 * D + 600) * (masses ps + 1) := by
  unfold restrictedShown at h
  replace h := Res.bind_eq_ok.mp h
  obtain ⟨name, h0, h⟩ := h
  replace h := Res.bind_eq_ok.mp h
  obtain ⟨label, h1, h⟩ := h
  replace h := Res.bind_eq_ok.mp h
  obtain ⟨provides, h2, h⟩ := h
  replace h := Res.bind_eq_ok.mp h
  obtain ⟨source, h3, h⟩ := h
  replace h := Res.bind_eq_ok.mp h
  obtain ⟨fp, h4, h⟩ := h
  simp only [Res.pure_eq, Res.ok.injEq] at h
  subst h
  obtain ⟨m, hm, f1, -⟩ := limited_element hrec (hps 4) (by omega) h4
  have g0 := word_mass h0
  have g1 := word_mass h1
  have g3 := word_mass h3
  obtain ⟨g2, -⟩ := strings_mass h2
  by_cases h5 : 5 ≤ ps.length
  · have g5 := masses_five h5
    rw [hm] at g5
    simp only [massOf] at g5
    have e1 : (20 * D + 600) * mass m + (20 * D + 600) * (massOf (nth ps 0) + massOf (nth ps 1) + massOf (nth ps 2) + massOf (nth ps 3))
        ≤ (20 * D + 600) * masses ps := by
      rw [← Nat.mul_add]
      exact Nat.mul_le_mul_left _ (by simp only [massOf]; omega)
    have e2 : massOf (nth ps 0) + massOf (nth ps 1) + massOf (nth ps 2) + massOf (nth ps 3)
        ≤ (20 * D + 600) * (massOf (nth ps 0) + massOf (nth ps 1) + massOf (nth ps 2) + massOf (nth ps 3)) :=
      Nat.le_mul_of_pos_left _ (by omega)
    rw [Nat.mul_add_one]
    have l1 := two "1] String: Name: ".toList name (n := 17) rfl
    have l2 := two "2] String: Label: ".toList label (n := 18) rfl
    have l4 := two "4] String: Source: ".toList source (n := 19) rfl
    have l5 : ("5] Descriptor:".toList).length = 14 := rfl
    have l3 : ("3] List: Provides: [ ".toList ++ provides.flatMap (fun p => p ++ " ".toList) ++ "]".toList).length
        ≤ massOf (nth ps 2) + 22 := by
      rw [List.length_append, List.length_append, provides_length']
      have : ("3] List: Provides: [ ".toList).length = 21 := rfl
      have : ("]".toList).length = 1 := rfl
      omega
    simp only [extent_append, extent_cons, extent_nil, width_mk, l1, l2, l4, l5]
    omega
  · have e4 := nth_few (ps := ps) (by omega)
    have hd : m.val = .described := by
      rw [hm] at h4
      unfold elementLines at h4
      split at h4
      · next e => simpa [valueOf] using e
      · cases h4
    rw [← e4, hm] at h3
    simp only [wordAt, valueOf, Option.map_some, hd] at h3
    cases h3

private theorem composite_limited {D depth k : Nat} {root : Node} {rec : Lines} {ps : List Node} {ls : List Line}
    (hrec : Limited D (mass root) depth root rec) (hps : ∀ i m, nth ps i = some m → Inside m root) (hD : k + 4 * depth + 4 + mass root ≤ D)
    (h : compositeShown rec (k + 2) ps = .ok ls) : extent ls ≤ (20 * D + 600) * (masses ps + 1) := by
  unfold compositeShown at h
  replace h := Res.bind_eq_ok.mp h
  obtain ⟨name, h0, h⟩ := h
  replace h := Res.bind_eq_ok.mp h
  obtain ⟨label, h1, h⟩ := h
  replace h := Res.bind_eq_ok.mp h
  obtain ⟨_, -, h⟩ := h
  replace h := Res.bind_eq_ok.mp h
  obtain ⟨provides, h2, h⟩ := h
  replace h := Res.bind_eq_ok.mp h
  obtain ⟨ds, hd, h⟩ := h
  replace h := Res.bind_eq_ok.mp h
  obtain ⟨fp, hfp, h⟩ := h
  replace h := Res.bind_eq_ok.mp h
  obtain ⟨fs, hfs, h⟩ := h
  simp only [Res.pure_eq, Res.ok.injEq] at h
  subst h
  cases h3 : nth ps 3 with
  | none => rw [h3] at hd; cases hd
  | some p3 =>
    rw [h3] at hd hfp
    have e3 := described_of_parts hd
    obtain ⟨f1, m0, f2, f3⟩ := hrec (k + 2 + 1) p3 fp (hps 3 p3 h3) (by rw [e3]; simp [Node.val]) (by omega) hfp
    obtain ⟨p4, h4⟩ := nth_isSome (ps := ps) 4 (by intro e; rw [e] at h3; cases h3)
    have hlen : (listElements (nth ps 4)).length ≤ p4.kids.length := by
      rw [h4]
      unfold listElements
      split
      · exact Nat.le_refl _
      · simp
    rw [h4] at hfs hlen
    obtain ⟨g1, gP⟩ := numbered_limited hrec (hps 4 p4 h4) (by
        cases hk : p4.kids with
        | nil => exact .inr rfl
        | cons j js => exact .inl (solid_kid (n := p4) (i := 0) (m := j) (by rw [hk]; rfl))) (by omega)
      (fun i => ⟨k + 2 + 1, outOf i (listElements (some p4)).length⟩) (fun i h1 h2 => by
        have := outOf_length i (listElements (some p4)).length
        rw [width_mk]
        omega) hfs
    by_cases h5 : 5 ≤ ps.length
    · have g5 := masses_five h5
      rw [h3, h4] at g5
      simp only [massOf] at g5
      have g6 := masses_solid fun m hm => (gP m hm).1
      have n0 := word_mass h0
      have n1 := word_mass h1
      obtain ⟨n2, n2'⟩ := strings_mass h2
      have e0 : (20 * D + 600) * masses p4.kids ≤ (20 * D + 600) * mass p4 := Nat.mul_le_mul_left _ (by omega)
      have e1 : (20 * D + 600) * mass p3 + (20 * D + 600) * mass p4
          + (20 * D + 600) * (massOf (nth ps 0) + massOf (nth ps 1) + massOf (nth ps 2)) ≤ (20 * D + 600) * masses ps := by
        rw [← Nat.mul_add, ← Nat.mul_add]
        exact Nat.mul_le_mul_left _ (by simp only [massOf]; omega)
      generalize hS : massOf (nth ps 0) + massOf (nth ps 1) + massOf (nth ps 2) = S at e1
      have e2 : (20 * D + 600) * S = (2 * (D + 2)) * S + (18 * D + 596) * S := by
        rw [← Nat.add_mul, show 2 * (D + 2) + (18 * D + 596) = 20 * D + 600 by omega]
      have e3 : S ≤ (18 * D + 596) * S := Nat.le_mul_of_pos_left _ (by omega)
      have e4 : 2 * (k + 2) * provides.length ≤ (2 * (D + 2)) * S := Nat.mul_le_mul (by omega) (by omega)
      have l1 := two "1] String: ClassName: ".toList name (n := 22) rfl
      have l2 : ("2] String: Label: \"".toList ++ label ++ "\"".toList).length = 20 + label.length := by
        rw [List.length_append, List.length_append]
        have : ("2] String: Label: \"".toList).length = 19 := rfl
        have : ("\"".toList).length = 1 := rfl
        omega
      have l3 : ("3] List: Provides: [ ".toList ++ provides.flatMap (fun p => List.replicate (2 * (k + 2)) ' ' ++ p ++ " ".toList)
          ++ "]".toList).length = 22 + (provides.map fun s => s.length + 1).sum + 2 * (k + 2) * provides.length := by
        rw [List.length_append, List.length_append, provides_length]
        have : ("3] List: Provides: [ ".toList).length = 21 := rfl
        have : ("]".toList).length = 1 := rfl
        omega
      have l4 : ("4] Descriptor:".toList).length = 14 := rfl
      have l5 : ("5] List: Fields: ".toList).length = 17 := rfl
      rw [Nat.mul_add_one (20 * D + 600)]
      simp only [extent_append, extent_cons, extent_nil, width_mk, extent_flatten, l1, l2, l3, l4, l5]
      omega
    · have e4 := nth_few (ps := ps) (by omega)
      rw [h3, h4] at e4
      cases e4
      exact absurd (gP m0 (nth_mem f2)).2 f3

private theorem schema_limited {D depth k : Nat} {root : Node} {rec : Lines} {ps : List Node} {ls : List Line}
    (hrec : Limited D (mass root) depth root rec) (hroot : Inside (.mk .list ps) root) (hD : k + 4 * depth + 4 + mass root ≤ D)
    (h : schemaShown rec (k + 2) (some (.mk .list ps)) = .ok ls) : extent ls ≤ (20 * D + 600) * (masses ps + 1) := by
  unfold schemaShown at h
  replace h := Res.bind_eq_ok.mp h
  obtain ⟨lists, hl, h⟩ := h
  simp only [Res.pure_eq, Res.ok.injEq] at h
  subst h
  rw [extent_flatten]
  have hps : ps.length ≤ mass root := by
    cases ps with
    | nil => simp
    | cons p ps =>
      have h1 := solid_inside hroot (solid_kid (i := 0) (m := p) rfl)
      have h2 := masses_lt (a := .list) (ks := p :: ps) (by simp)
      have h3 := length_le_masses (p :: ps)
      omega
  have := (numberedOf_sum (W := 20 * D + 600) (fun _ => True) extent (n := some (.mk .list ps)) (fun i m x hi hm hx => by
    replace hx := Res.bind_eq_ok.mp hx
    obtain ⟨ts, ht, hx⟩ := hx
    replace hx := Res.bind_eq_ok.mp hx
    obtain ⟨types, hty, hx⟩ := hx
    simp only [Res.pure_eq, Res.ok.injEq] at hx
    subst hx
    have hmm := list_of_parts ht
    cases hmm
    have hin := inside_trans (inside_kid (n := .mk .list ps) hm) hroot
    change i ≤ ps.length at hi
    have hts : ts.length ≤ mass root := by
      cases ts with
      | nil => simp
      | cons p ts =>
        have h1 := solid_inside hin (solid_kid (i := 0) (m := p) rfl)
        have h2 := masses_lt (a := .list) (ks := p :: ts) (by simp)
        have h3 := length_le_masses (p :: ts)
        omega
    obtain ⟨g1, -⟩ := numbered_limited hrec hin (by
        cases ts with
        | nil => exact .inr rfl
        | cons j js => exact .inl (solid_kid (i := 0) (m := j) rfl)) (by omega)
      (fun j => ⟨k + 2 + 1, dec i ++ ":".toList ++ outOf j ts.length ++ " ".toList⟩) (fun j h1 h2 => by
        have e1 := outOf_length j ts.length
        have e2 := dec_length i
        have e3 : (":".toList).length = 1 := rfl
        have e4 : (" ".toList).length = 1 := rfl
        change j ≤ ts.length at h1
        rw [width_mk, List.length_append, List.length_append, List.length_append]
        omega) hty
    refine ⟨?_, trivial⟩
    rw [← masses_lt (a := .list) (ks := ts) (by simp), show masses ts + ink .list + 1 = masses ts + 1 from rfl, Nat.mul_add_one,
      extent_cons, width_mk, extent_flatten]
    have e1 := outOf_length i ps.length
    have e2 := dec_length ts.length
    have e3 : (" list: entries: ".toList).length = 16 := rfl
    change _ ≤ (20 * D + 600) * masses ts at g1
    rw [List.length_append, List.length_append, e3]
    change 2 * (k + 2) + ((outOf i ps.length).length + 16 + (dec ts.length).length) + 1 + _ ≤ _
    omega) hl).1
  exact Nat.le_trans this (Nat.mul_le_mul_left _ (Nat.le_succ _))

private theorem envelope_limited {D depth k : Nat} {root : Node} {rec : Lines} {ps : List Node} {ls : List Line}
    (hrec : Limited D (mass root) depth root rec) (hps : ∀ i m, nth ps i = some m → Inside m root) (hD : k + 4 * depth + 4 + mass root ≤ D)
    (hlone : ∀ p, ps ≠ [p]) (h : envelopeShown rec (k + 2) ps = .ok ls) : extent ls ≤ (20 * D + 600) * (masses ps + 1) := by
  unfold envelopeShown at h
  replace h := Res.bind_eq_ok.mp h
  obtain ⟨a, ha, h⟩ := h
  replace h := Res.bind_eq_ok.mp h
  obtain ⟨b, hb, h⟩ := h
  simp only [Res.pure_eq, Res.ok.injEq] at h
  subst h
  obtain ⟨m0, e0, f0, -⟩ := limited_element hrec (hps 0) (by omega) ha
  obtain ⟨m1, e1, f1, -⟩ := limited_element hrec (hps 1) (by omega) hb
  have h2 : 2 ≤ ps.length := by
    match ps, e0, hlone with
    | [], e0, _ => cases e0
    | [p], _, hl => exact absurd rfl (hl p)
    | p :: q :: r, _, _ => simp
  have g := sum_range_nth ps 2 h2
  simp only [List.range_succ, List.range_zero, List.nil_append, List.map_append, List.map_cons, List.map_nil, List.sum_append,
    List.sum_cons, List.sum_nil, e0, e1, massOf] at g
  have e : (20 * D + 600) * mass m0 + (20 * D + 600) * mass m1 ≤ (20 * D + 600) * masses ps := by
    rw [← Nat.mul_add]
    exact Nat.mul_le_mul_left _ (by omega)
  have l1 : ("1]".toList).length = 2 := rfl
  have l2 : ("2]".toList).length = 2 := rfl
  rw [Nat.mul_add_one]
  simp only [extent_append, extent_cons, extent_nil, width_mk, l1, l2]
  omega

theorem linesIn_limited (D : Nat) (root : Node) (hl : NoLoneParts root) : ∀ depth, Limited D (mass root) depth root (linesIn depth)
  | 0 => fun k n s _ _ _ h => by cases h
  | depth + 1 => fun k n ls hi ha hD h => by
    have ih := linesIn_limited D root hl depth
    obtain ⟨a, ks⟩ := n
    simp only [Node.val] at ha
    unfold linesIn at h
    simp only [kidsOf, Node.kids] at h ⊢
    split at h
    · next id e =>
      cases e0 : nth ks 0 with
      | none => rw [e0] at e; cases e
      | some m0 =>
        obtain ⟨a0, is⟩ := m0
        rw [e0] at e
        simp only [valueOf, Option.map_some, Option.some.injEq, Node.val] at e
        subst e
        replace h := Res.bind_eq_ok.mp h
        obtain ⟨ps, hp, h⟩ := h
        replace h := Res.bind_eq_ok.mp h
        obtain ⟨xs, hx, h⟩ := h
        simp only [Res.pure_eq, Res.ok.injEq] at h
        subst h
        have e1 := list_of_parts hp
        rw [e1] at hx
        have hroot := inside_trans (inside_nth (n := .mk a ks) e1) hi
        have hps : ∀ i m, nth ps i = some m → Inside m root := fun i m hm =>
          inside_trans (inside_kid (n := .mk .list ps) (nth_mem hm)) hroot
        have h1 : extent xs ≤ (20 * D + 600) * (masses ps + 1) := by
          unfold insideShown at hx
          by_cases c1 : id = cordaId 1
          · rw [if_pos c1] at hx
            refine envelope_limited ih hps (by omega) (fun p hp => ?_) hx
            subst hp c1
            exact hl a ks is p hi e1 e0
          rw [if_neg c1] at hx
          by_cases c1 : id = cordaId 2
          · rw [if_pos c1] at hx
            exact schema_limited ih hroot (by omega) hx
          rw [if_neg c1] at hx
          by_cases c1 : id = cordaId 3
          · rw [if_pos c1] at hx
            exact object_limited (by omega) hx
          rw [if_neg c1] at hx
          by_cases c1 : id = cordaId 4
          · rw [if_pos c1] at hx
            exact field_limited (by omega) hx
          rw [if_neg c1] at hx
          by_cases c1 : id = cordaId 5
          · rw [if_pos c1] at hx
            exact composite_limited ih hps (by omega) hx
          rw [if_neg c1] at hx
          by_cases c1 : id = cordaId 6
          · rw [if_pos c1] at hx
            exact restricted_limited ih hps (by omega) hx
          rw [if_neg c1] at hx
          split at hx
          · have h2 := (ih (k + 1) _ xs hroot (by simp [Node.val]) (by omega) hx).1
            rw [← masses_lt (a := .list) (ks := ps) (by simp), show masses ps + ink .list + 1 = masses ps + 1 from rfl] at h2
            omega
          · cases hx
        have h2 := masses_two e0 e1 (by intro e'; cases e')
        have h3 := masses_lt (a := .list) (ks := ps) (by simp)
        have h4 := masses_lt (a := a) (ks := ks) ha
        have h5 := dec_ulong id is
        have h6 := head_extent k id ps.length
        have h7 : ps.length ≤ mass root := by
          cases ps with
          | nil => simp
          | cons p ps =>
            have h1 := solid_inside hroot (solid_kid (i := 0) (m := p) rfl)
            have h3 := length_le_masses (p :: ps)
            omega
        refine ⟨?_, _, rfl, by simp [Node.val]⟩
        have e2 : (20 * D + 600) * (masses ps + 1) + (20 * D + 600) * (mass (.mk (.ulong id) is) + 1) ≤ (20 * D + 600) * mass (.mk a ks) := by
          rw [← Nat.mul_add]
          exact Nat.mul_le_mul_left _ (by have : ink .list = 0 := rfl; omega)
        have e3 : mass (.mk (.ulong id) is) ≤ (20 * D + 600) * mass (.mk (.ulong id) is) := Nat.le_mul_of_pos_left _ (by omega)
        rw [Nat.mul_add_one (20 * D + 600) (mass _)] at e2
        rw [extent_append]
        omega
    · next x e =>
      cases e0 : nth ks 0 with
      | none => rw [e0] at e; cases e
      | some m0 =>
        rw [e0] at e
        simp only [valueOf, Option.map_some, Option.some.injEq] at e
        simp only [Res.ok.injEq] at h
        subst h
        have h2 := ink_lt m0
        rw [e, ink] at h2
        have h3 := massOf_nth ks 0
        rw [e0, massOf] at h3
        have h4 := masses_lt (a := a) (ks := ks) ha
        have h5 : (20 * D + 600) * (x.length + 1) ≤ (20 * D + 600) * mass (.mk a ks) := Nat.mul_le_mul_left _ (by omega)
        have h6 := Nat.mul_add_one (20 * D + 600) x.length
        have h7 : x.length ≤ (20 * D + 600) * x.length := Nat.le_mul_of_pos_left _ (by omega)
        have h8 := dec_length x.length
        have l1 : ("DESCRIBED: ".toList).length = 11 := rfl
        have l2 := two "blob: bytes: ".toList (dec x.length) (n := 13) rfl
        refine ⟨?_, m0, rfl, by rw [e]; simp⟩
        simp only [extent_cons, extent_nil, width_mk, l1, l2]
        omega
    · cases h

theorem rawDump_length {n : Node} {s : Str} (hl : NoLoneParts n) (h : rawDump n = .ok s) : s.length ≤ (120 * mass n + 700) * mass n := by
  unfold rawDump at h
  split at h
  · next e =>
    replace h := Res.bind_eq_ok.mp h
    obtain ⟨ls, hls, h⟩ := h
    simp only [Res.pure_eq, Res.ok.injEq] at h
    subst h
    have h1 := height_mass _ n (Nat.le_refl _)
    have h2 := (linesIn_limited (5 * mass n + 4) n hl n.height 0 n ls (.here n) (by rw [e]; simp) (by omega) hls).1
    rw [page_length]
    refine Nat.le_trans (by omega) (Nat.le_trans h2 (Nat.mul_le_mul_right _ (by omega)))
  · cases h

end Corda
