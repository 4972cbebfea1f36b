import Verif.Lemmas.BulkNames

/-
How long the Avro form of a schema is.
-/

namespace Corda
open Spec

/-! ### The name of a type -/

private theorem boxed_shorter : ∀ p ∈ boxed, p.2.toList.length ≤ p.1.toList.length := by decide

theorem unboxed_length (s : Str) : (unboxed s).length ≤ s.length := by
  unfold unboxed
  split
  · next p h =>
    have h1 := List.find?_some h
    have h2 := boxed_shorter p (List.mem_of_find?_eq_some h)
    simp only [beq_iff_eq] at h1
    rw [h1] at h2
    exact h2
  · omega

theorem afterOpen_length (s : Str) : (afterOpen s).length ≤ s.length := by
  unfold afterOpen
  split
  · rw [List.length_drop]
    have := (List.dropWhile_sublist (l := s) (· != '<')).length_le
    omega
  · omega

theorem afterComma_length : ∀ (s : Str) (l : Int) (r : Str), afterComma l s = some r → r.length + 1 ≤ s.length
  | [], _, _, h => by cases h
  | c :: cs, l, r, h => by
    have ih := afterComma_length cs
    unfold afterComma at h
    rw [List.length_cons]
    split at h
    · have := ih _ _ h; omega
    · split at h
      · have := ih _ _ h; omega
      · split at h
        · simp only [Option.some.injEq] at h; subst h; omega
        · have := ih _ _ h; omega

theorem itemsOf_length (s : Str) : (itemsOf s).length ≤ s.length - 1 := by
  unfold itemsOf
  have h1 := unboxed_length (afterOpen s).dropLast
  have h2 := afterOpen_length s
  rw [List.length_dropLast] at h1
  omega

theorem valuesOf_length {s v : Str} (h : valuesOf s = .ok v) : v.length + 1 ≤ s.length := by
  unfold valuesOf at h
  split at h
  · next r e =>
    simp only [Res.ok.injEq] at h
    subst h
    have h1 := unboxed_length (r.dropLast.dropWhile (· == ' '))
    have h2 := (List.dropWhile_sublist (l := r.dropLast) (· == ' ')).length_le
    have h3 := afterComma_length _ _ _ e
    have h4 := afterOpen_length s
    rw [List.length_dropLast] at h2
    omega
  · cases h

theorem elementsOf_length {s t : Str} (h : elementsOf s = .ok (some t)) : t.length + 1 ≤ s.length := by
  unfold elementsOf at h
  split at h
  · cases h
  · next hs =>
    have : s ≠ [] := fun e => hs (.inl e)
    have hp := List.length_pos_iff.mpr this
    split at h
    · simp only [Res.ok.injEq, Option.some.injEq] at h
      subst h
      rw [List.length_take]; omega
    · split at h
      · simp only [Res.ok.injEq, Option.some.injEq] at h
        subst h
        rw [List.length_take]; omega
      · simp at h

private theorem l_indent (k : Nat) : (indent k).length = 2 * k := by simp [indent]
private theorem l_array : tArray.length = 18 := rfl
private theorem l_items : tItems.length = 10 := rfl
private theorem l_map : tMap.length = 15 := rfl
private theorem l_values : tValues.length = 9 := rfl
private theorem l_nested : tValuesNested.length = 12 := rfl
private theorem l_type : tType.length = 10 := rfl
private theorem l_end : tTypeEnd.length = 2 := rfl

theorem typeShown_length {D : Nat} : ∀ depth k s x, k + s.length ≤ D → typeShown depth k s = .ok x →
    x.length ≤ (6 * D + 40) * (s.length + 1)
  | 0, _, _, _, _, h => by cases h
  | depth + 1, k, s, x, hD, h => by
    have step : ∀ (t : Str) (a : Nat), t.length + 1 ≤ s.length → a ≤ (6 * D + 40) * (t.length + 1) →
        6 * k + 40 + a ≤ (6 * D + 40) * (s.length + 1) := by
      intro t a h1 h2
      have h3 : (6 * D + 40) * (t.length + 1 + 1) ≤ (6 * D + 40) * (s.length + 1) := Nat.mul_le_mul_left _ (by omega)
      have h4 := Nat.mul_add_one (6 * D + 40) (t.length + 1)
      omega
    have last : ∀ a, a ≤ 4 * k + 40 + s.length → a ≤ (6 * D + 40) * (s.length + 1) := by
      intro a h1
      have h2 : (6 * D + 40) * 1 ≤ (6 * D + 40) * (s.length + 1) := Nat.mul_le_mul_left _ (by omega)
      omega
    unfold typeShown at h
    replace h := Res.bind_eq_ok.mp h
    obtain ⟨a, ha, h⟩ := h
    cases a with
    | some t =>
      have ht := elementsOf_length ha
      replace h := Res.bind_eq_ok.mp h
      obtain ⟨c, -, h⟩ := h
      split at h
      · replace h := Res.bind_eq_ok.mp h
        obtain ⟨y, hy, h⟩ := h
        simp only [Res.pure_eq, Res.ok.injEq] at h
        subst h
        have h1 := typeShown_length (D := D) depth (k + 1) t y (by omega) hy
        have h2 := step t _ ht h1
        simp only [List.length_append, l_indent, l_array, l_items, List.length_cons, List.length_nil]
        omega
      · simp only [Res.pure_eq, Res.ok.injEq] at h
        subst h
        apply last
        simp only [List.length_append, l_indent, l_array, l_items, List.length_cons, List.length_nil]
        omega
    | none =>
      have hne : s ≠ [] := by
        intro e
        subst e
        unfold elementsOf at ha
        rw [if_pos (.inl rfl)] at ha
        cases ha
      have hp := List.length_pos_iff.mpr hne
      simp only at h
      split at h
      · have ht := itemsOf_length s
        replace h := Res.bind_eq_ok.mp h
        obtain ⟨c, -, h⟩ := h
        split at h
        · replace h := Res.bind_eq_ok.mp h
          obtain ⟨y, hy, h⟩ := h
          simp only [Res.pure_eq, Res.ok.injEq] at h
          subst h
          have h1 := typeShown_length (D := D) depth (k + 1) _ y (by omega) hy
          have h2 := step _ _ (by omega) h1
          simp only [List.length_append, l_indent, l_array, l_items, List.length_cons, List.length_nil]
          omega
        · simp only [Res.pure_eq, Res.ok.injEq] at h
          subst h
          apply last
          simp only [List.length_append, l_indent, l_array, l_items, List.length_cons, List.length_nil]
          omega
      · split at h
        · replace h := Res.bind_eq_ok.mp h
          obtain ⟨v, hv, h⟩ := h
          have ht := valuesOf_length hv
          replace h := Res.bind_eq_ok.mp h
          obtain ⟨c, -, h⟩ := h
          split at h
          · replace h := Res.bind_eq_ok.mp h
            obtain ⟨y, hy, h⟩ := h
            simp only [Res.pure_eq, Res.ok.injEq] at h
            subst h
            have h1 := typeShown_length (D := D) depth (k + 1) _ y (by omega) hy
            have h2 := step _ _ ht h1
            simp only [List.length_append, l_indent, l_map, l_nested, List.length_cons, List.length_nil]
            omega
          · simp only [Res.pure_eq, Res.ok.injEq] at h
            subst h
            apply last
            simp only [List.length_append, l_indent, l_map, l_values, List.length_cons, List.length_nil]
            omega
        · simp only [Res.pure_eq, Res.ok.injEq] at h
          subst h
          apply last
          simp only [List.length_append, l_indent, l_type, l_end]
          omega

/-! ### Parts -/

/-- The sizes of what is made of the parts, and something that is true of all the parts. -/
theorem numberedOf_sum {α : Type} {W : Nat} (P : Node → Prop) (sz : α → Nat) {f : Nat → Option Node → Res α} {n : Option Node} {l : List α}
    (hf : ∀ i m x, i ≤ (kidsOf n).length → m ∈ kidsOf n → f i (some m) = .ok x → sz x ≤ W * mass m ∧ P m)
    (h : numberedOf f n = .ok l) : (l.map sz).sum ≤ W * masses (kidsOf n) ∧ ∀ m ∈ kidsOf n, P m := by
  have key : ∀ (ks : List Node) (i : Nat) (l : List α),
      (∀ j m x, j ≤ i + ks.length - 1 → m ∈ ks → f j (some m) = .ok x → sz x ≤ W * mass m ∧ P m) →
      all ((ks.zipIdx i).map fun x => f x.2 (some x.1)) = .ok l →
      (l.map sz).sum ≤ W * masses ks ∧ ∀ m ∈ ks, P m := by
    intro ks
    induction ks with
    | nil =>
      intro i l _ h
      simp only [List.zipIdx_nil, List.map_nil, all, Res.ok.injEq] at h
      subst h
      simp [masses]
    | cons k ks ih =>
      intro i l hf h
      rw [List.zipIdx_cons, List.map_cons, all] at h
      replace h := Res.bind_eq_ok.mp h
      obtain ⟨x, hx, h⟩ := h
      replace h := Res.bind_eq_ok.mp h
      obtain ⟨xs, hxs, h⟩ := h
      simp only [Res.pure_eq, Res.ok.injEq] at h
      subst h
      have h1 := hf i k x (by rw [List.length_cons]; omega) List.mem_cons_self hx
      have h2 := ih (i + 1) xs (fun j m x hj hm => hf j m x (by rw [List.length_cons]; omega) (List.mem_cons_of_mem _ hm)) hxs
      rw [List.map_cons, List.sum_cons, masses, Nat.mul_add]
      refine ⟨by omega, ?_⟩
      intro m hm
      rcases List.mem_cons.mp hm with rfl | hm
      · exact h1.2
      · exact h2.2 m hm
  exact key _ 1 _ (fun j m x hj => hf j m x (by omega)) h

theorem masses_kids {n : Option Node} (h : ∀ m ∈ kidsOf n, solid m = true) : masses (kidsOf n) ≤ massOf n := by
  cases n with
  | none => simp [kidsOf, masses]
  | some n =>
    have := masses_solid (n := n) h
    simp only [kidsOf, massOf]
    omega

theorem flatten_length (l : List Str) : l.flatten.length = (l.map fun s => s.length).sum := by
  rw [List.length_flatten]

/-- Five parts one after the other. -/
theorem masses_five {ps : List Node} (h : 5 ≤ ps.length) :
    massOf (nth ps 0) + massOf (nth ps 1) + massOf (nth ps 2) + massOf (nth ps 3) + massOf (nth ps 4) ≤ masses ps := by
  have := sum_range_nth ps 5 h
  simp only [List.range_succ, List.range_zero, List.nil_append, List.map_append, List.map_cons, List.map_nil, List.sum_append,
    List.sum_cons, List.sum_nil] at this
  omega

/-- With fewer than five parts the fourth is the fifth. -/
theorem nth_few {ps : List Node} (h : ps.length < 5) : nth ps 4 = nth ps 3 := by
  unfold nth
  rw [show min 4 (ps.length - 1) = min 3 (ps.length - 1) by omega]

theorem word_mass {b : Bool} {n : Option Node} {s : Str} (h : wordAt b n = .ok s) : s.length + 1 ≤ massOf n := by
  cases n with
  | none => cases h
  | some n =>
    have := ink_lt n
    simp only [wordAt, valueOf, Option.map_some] at h
    simp only [massOf]
    split at h
    · next t e => simp only [Option.some.injEq] at e; simp only [Res.ok.injEq] at h; subst h; rw [e, ink] at this; omega
    · next t e => simp only [Option.some.injEq] at e; simp only [Res.ok.injEq] at h; subst h; rw [e, ink] at this; omega
    · split at h
      · simp only [Res.ok.injEq] at h; subst h; simp only [List.length_nil]; omega
      · cases h
    · cases h

theorem string_mass {b : Bool} {n : Option Node} {s : Str} (h : stringAt b n = .ok s) : s.length + 1 ≤ massOf n := by
  refine word_mass (b := b) ?_
  unfold stringAt at h
  unfold wordAt
  split at h
  · next e => rw [e]; exact h
  · next e =>
    rw [e]
    split at h
    · next hb => simp only [hb, if_true]; exact h
    · cases h
  · cases h

theorem symbol_mass {n : Option Node} {s : Str} (h : symbolOf n = .ok s) : s.length + 1 ≤ massOf n := by
  cases n with
  | none => cases h
  | some n =>
    have := ink_lt n
    simp only [symbolOf, valueOf, Option.map_some] at h
    simp only [massOf]
    split at h
    · next t e => simp only [Option.some.injEq] at e; simp only [Res.ok.injEq] at h; subst h; rw [e, ink] at this; omega
    · cases h

theorem dec_length (n : Nat) : (dec n).length ≤ n + 1 := by
  rw [show dec n = decimalNat n from natStr_eq n]
  exact length_decimalNat_le n

theorem masses_two {ks : List Node} {m0 m1 : Node} (h0 : nth ks 0 = some m0) (h1 : nth ks 1 = some m1) (hne : m0 ≠ m1) :
    mass m0 + mass m1 ≤ masses ks := by
  have h2 : 2 ≤ ks.length := by
    cases ks with
    | nil => cases h0
    | cons a l =>
      cases l with
      | nil => cases h0; cases h1; exact absurd rfl hne
      | cons b l => simp
  have := sum_range_nth ks 2 h2
  simp only [List.range_succ, List.range_zero, List.nil_append, List.map_append, List.map_cons, List.map_nil, List.sum_append,
    List.sum_cons, List.sum_nil, h0, h1, massOf] at this
  omega

/-! ### Elements -/

private theorem l_record (k : Nat) (name fp fs : Str) :
    (recordAround k name fp fs).length ≤ 10 * k + 2 * name.length + fp.length + fs.length + 100 := by
  have h1 : (simpleName name).length ≤ name.length := by
    unfold simpleName
    rw [List.length_reverse]
    have := (List.takeWhile_sublist (l := name.reverse) (· != '.')).length_le
    rw [List.length_reverse] at this
    exact this
  have h2 : (packageName name).length ≤ name.length := by
    unfold packageName
    split
    · rw [List.length_take]; omega
    · omega
  have key : ∀ a b c d e f g h i : Str, a.length = 1 → b.length = 18 → c.length = 10 → d.length = 2 → e.length = 15 → f.length = 2 →
      g.length = 12 → h.length = 1 → i.length = 1 → (a ++ ['\n'] ++ indent k ++ b ++ ['\n'] ++ indent k ++ c ++ simpleName name ++ d ++ ['\n']
        ++ indent k ++ e ++ packageName name ++ f ++ ['\n'] ++ fp ++ indent k ++ g ++ ['\n'] ++ fs ++ indent k ++ h ++ ['\n']
        ++ i).length ≤ 10 * k + 2 * name.length + fp.length + fs.length + 100 := by
    intros
    simp only [List.length_append, l_indent, List.length_cons, List.length_nil]
    omega
  exact key _ _ _ _ _ _ _ _ _ rfl rfl rfl rfl rfl rfl rfl rfl rfl

private theorem l_field (k : Nat) (name t : Str) : (fieldAround k name t).length ≤ 6 * k + name.length + t.length + 30 := by
  have key : ∀ a b c d : Str, a.length = 1 → b.length = 10 → c.length = 3 → d.length = 1 →
      (indent k ++ a ++ ['\n'] ++ indent (k + 1) ++ b ++ name ++ c ++ ['\n'] ++ t ++ indent k ++ d).length
        ≤ 6 * k + name.length + t.length + 30 := by
    intros
    simp only [List.length_append, l_indent, List.length_cons, List.length_nil]
    omega
  exact key _ _ _ _ rfl rfl rfl rfl

private theorem l_object (k : Nat) (s : Str) :
    (indent k ++ "\"aliases\" : [ \"".toList ++ s ++ "\" ],".toList ++ ['\n']).length ≤ 2 * k + s.length + 20 := by
  have key : ∀ a b : Str, a.length = 15 → b.length = 4 → (indent k ++ a ++ s ++ b ++ ['\n']).length ≤ 2 * k + s.length + 20 := by
    intros
    simp only [List.length_append, l_indent, List.length_cons, List.length_nil]
    omega
  exact key _ _ rfl rfl

private theorem l_blob (k n : Nat) : (indent k ++ "blob: bytes: ".toList ++ dec n ++ ['\n']).length ≤ 2 * k + n + 15 := by
  have key : ∀ a : Str, a.length = 13 → (indent k ++ a ++ dec n ++ ['\n']).length ≤ 2 * k + n + 15 := by
    intro a ha
    have := dec_length n
    simp only [List.length_append, l_indent, List.length_cons, List.length_nil]
    omega
  exact key _ rfl

private theorem l_fieldLine (n i : Nat) (t : Str) : (fieldLine n i t).length ≤ t.length + 2 := by
  unfold fieldLine
  split
  · have key : ∀ a : Str, a.length = 1 → (t ++ a ++ ['\n']).length ≤ t.length + 2 := by
      intro a ha
      simp only [List.length_append, List.length_cons, List.length_nil]; omega
    exact key _ rfl
  · simp

private theorem l_typeLine (n i : Nat) (t : Str) : (typeLine n i t).length ≤ t.length + 2 := by
  unfold typeLine
  split
  · simp
  · exact l_fieldLine n i t

/-- What is known of the elements inside a tree of size `M`. -/
private def Bounded (D M depth : Nat) (root : Node) (rec : Avros) : Prop :=
  ∀ k n s, Inside n root → n.val ≠ .array → k + 3 * depth + M ≤ D → rec k (some n) = .ok s →
    s.length + 10 ≤ (6 * D + 200) * mass n ∧ ∃ m, nth n.kids 0 = some m ∧ m.val ≠ .described

theorem solid_kid {n m : Node} {i : Nat} (h : nth n.kids i = some m) : solid n = true := by
  unfold solid
  split <;> try rfl
  simp only [Bool.not_eq_true', List.isEmpty_eq_false_iff]
  intro e
  rw [e] at h
  cases h

private theorem bounded_element {D M depth : Nat} {root : Node} {rec : Avros} (h : Bounded D M depth root rec) {k : Nat} {n : Option Node}
    {s : Str} (hi : ∀ m, n = some m → Inside m root) (hD : k + 3 * depth + M ≤ D) (hs : elementAvro rec k n = .ok s) :
    ∃ m, n = some m ∧ s.length + 10 ≤ (6 * D + 200) * mass m ∧ solid m = true ∧ m.val = .described := by
  unfold elementAvro at hs
  cases n with
  | none => cases hs
  | some m =>
    split at hs
    · next e =>
      simp only [valueOf, Option.map_some, Option.some.injEq] at e
      obtain ⟨h1, m', h2, -⟩ := h k m s (hi m rfl) (by rw [e]; simp) hD hs
      exact ⟨m, rfl, h1, solid_kid h2, e⟩
    · cases hs

private theorem inside_bound {D depth k id : Nat} {root : Node} {rec : Avros} {ps : List Node} {s : Str} (h : Bounded D (mass root) depth root rec)
    (hroot : Inside (.mk .list ps) root) (hD : k + 3 * depth + 3 + mass root ≤ D)
    (hs : insideAvro rec k id (some (.mk .list ps)) = .ok s) : s.length + 10 ≤ (6 * D + 200) * (masses ps + 3) := by
  have hps : ∀ i m, nth ps i = some m → Inside m root := fun i m hm => inside_trans (inside_kid (n := .mk .list ps) (nth_mem hm)) hroot
  have hW := Nat.mul_add (6 * D + 200) (masses ps) 3
  have up : ∀ {a : Nat}, a ≤ masses ps → (6 * D + 200) * a ≤ (6 * D + 200) * masses ps := fun h => Nat.mul_le_mul_left _ h
  have few : ∀ a : Nat, a ≤ (6 * D + 200) * a := fun a => Nat.le_mul_of_pos_left a (by omega)
  unfold insideAvro at hs
  by_cases h1 : id = cordaId 1
  · rw [if_pos h1] at hs
    obtain ⟨m, hm, h2, -⟩ := bounded_element h (hps 1) (by omega) hs
    have h3 := massOf_nth ps 1
    rw [show nth ps 1 = some m from hm, massOf] at h3
    have := up h3
    omega
  rw [if_neg h1] at hs
  by_cases h1 : id = cordaId 2
  · rw [if_pos h1] at hs
    change schemaAvro rec k ps = .ok s at hs
    unfold schemaAvro at hs
    split at hs
    · replace hs := Res.bind_eq_ok.mp hs
      obtain ⟨types, ht, hs⟩ := hs
      simp only [Res.pure_eq, Res.ok.injEq] at hs
      subst hs
      have h2 := numberedOf_sum (W := 6 * D + 200) (fun m => solid m = true ∧ m.val = .described) (fun s : Str => s.length) (n := nth ps 0) (fun i m x _ hm hx => by
        replace hx := Res.bind_eq_ok.mp hx
        obtain ⟨y, hy, hx⟩ := hx
        simp only [Res.pure_eq, Res.ok.injEq] at hx
        subst hx
        obtain ⟨m', hm', h3, h4⟩ := bounded_element h (n := some m) (fun m' e => by
          cases e
          cases hn : nth ps 0 with
          | none => rw [hn] at hm; cases hm
          | some p => rw [hn] at hm; exact inside_trans (inside_kid hm) (hps 0 p hn)) (by omega) hy
        cases hm'
        have := l_typeLine (listElements (nth ps 0)).length i y
        exact ⟨by omega, h4⟩) ht
      rw [flatten_length]
      have h3 := masses_kids fun m hm => (h2.2 m hm).1
      have h4 := up (Nat.le_trans h3 (massOf_nth ps 0))
      have h5 := h2.1
      omega
    · cases hs
  rw [if_neg h1] at hs
  by_cases h1 : id = cordaId 3
  · rw [if_pos h1] at hs
    change objectAvro k ps = .ok s at hs
    unfold objectAvro at hs
    replace hs := Res.bind_eq_ok.mp hs
    obtain ⟨x, hx, hs⟩ := hs
    simp only [Res.pure_eq, Res.ok.injEq] at hs
    have h2 := l_object k x
    rw [hs] at h2
    have h3 := symbol_mass hx
    have h4 := massOf_nth ps 0
    have h5 := few (masses ps)
    omega
  rw [if_neg h1] at hs
  by_cases h1 : id = cordaId 4
  · rw [if_pos h1] at hs
    change fieldAvro k ps = .ok s at hs
    unfold fieldAvro at hs
    replace hs := Res.bind_eq_ok.mp hs
    obtain ⟨name, hname, hs⟩ := hs
    replace hs := Res.bind_eq_ok.mp hs
    obtain ⟨type, htype, hs⟩ := hs
    replace hs := Res.bind_eq_ok.mp hs
    obtain ⟨req, hreq, hs⟩ := hs
    replace hs := Res.bind_eq_ok.mp hs
    obtain ⟨t, ht, hs⟩ := hs
    simp only [Res.pure_eq, Res.ok.injEq] at hs
    subst hs
    have n1 := string_mass hname
    have n2 := massOf_nth ps 0
    have t1 := string_mass htype
    have t2 := massOf_nth ps 1
    have hq : req.length + 1 ≤ masses ps := by
      unfold requiredOf at hreq
      split at hreq
      · simp only [Res.ok.injEq] at hreq; subst hreq; simp only [List.length_nil]; omega
      · cases hn : nth ps 2 with
        | none => rw [hn] at hreq; cases hreq
        | some p =>
          rw [hn] at hreq
          change stringAt false (nth p.kids 0) = .ok req at hreq
          cases hk : nth p.kids 0 with
          | none => rw [hk] at hreq; cases hreq
          | some q =>
            rw [hk] at hreq
            have e1 := string_inside (n := q) (fun k e => by cases e; exact .here q) hreq
            have e0 := string_mass hreq
            simp only [massOf] at e0
            have e2 : solid q = true := by
              simp only [stringAt, valueOf, Option.map_some] at hreq
              split at hreq
              · next x e => simp only [Option.some.injEq] at e; simp only [solid, e]
              · simp at hreq
              · cases hreq
            have e3 := solid_le (nth_mem hk) e2
            have e4 := massOf_nth ps 2
            rw [hn, massOf] at e4
            omega
    have hr : (mass root) ≤ D := by omega
    have hl := solid_inside hroot (by
      simp only [solid, Node.val, Node.kids, Bool.not_eq_true', List.isEmpty_eq_false_iff]
      intro e
      subst e
      cases hname)
    have hl2 := masses_lt (a := .list) (ks := ps) (by simp)
    have hn : (neededType type req).length + 1 ≤ masses ps := by
      unfold neededType
      split <;> omega
    have h2 := typeShown_length (D := D) _ (k + 1) _ t (by omega) ht
    have h3 := l_field k name t
    have h4 : (6 * D + 40) * ((neededType type req).length + 1) ≤ (6 * D + 40) * masses ps := Nat.mul_le_mul_left _ hn
    have h5 : (6 * D + 200) * masses ps = (6 * D + 40) * masses ps + 160 * masses ps := by rw [← Nat.add_mul]
    omega
  rw [if_neg h1] at hs
  by_cases h1 : id = cordaId 5
  · rw [if_pos h1] at hs
    change compositeAvro rec (k + 1) ps = .ok s at hs
    unfold compositeAvro at hs
    replace hs := Res.bind_eq_ok.mp hs
    obtain ⟨name, hname, hs⟩ := hs
    replace hs := Res.bind_eq_ok.mp hs
    obtain ⟨_, -, hs⟩ := hs
    replace hs := Res.bind_eq_ok.mp hs
    obtain ⟨_, -, hs⟩ := hs
    replace hs := Res.bind_eq_ok.mp hs
    obtain ⟨ds, hd, hs⟩ := hs
    replace hs := Res.bind_eq_ok.mp hs
    obtain ⟨fp, hfp, hs⟩ := hs
    replace hs := Res.bind_eq_ok.mp hs
    obtain ⟨fs, hfs, hs⟩ := hs
    simp only [Res.pure_eq, Res.ok.injEq] at hs
    subst hs
    cases h3 : nth ps 3 with
    | none => rw [h3] at hd; cases hd
    | some p3 =>
      rw [h3] at hd hfp
      have e3 := described_of_parts hd
      obtain ⟨f1, m0, f2, f3⟩ := h (k + 1) p3 fp (hps 3 p3 h3) (by rw [e3]; simp [Node.val]) (by omega) hfp
      have g := numberedOf_sum (W := 6 * D + 200) (fun m => solid m = true ∧ m.val = .described) (fun s : Str => s.length) (n := nth ps 4) (fun i m x _ hm hx => by
        replace hx := Res.bind_eq_ok.mp hx
        obtain ⟨y, hy, hx⟩ := hx
        simp only [Res.pure_eq, Res.ok.injEq] at hx
        subst hx
        obtain ⟨m', hm', h4, h5⟩ := bounded_element h (n := some m) (fun m' e => by
          cases e
          cases hn : nth ps 4 with
          | none => rw [hn] at hm; cases hm
          | some p => rw [hn] at hm; exact inside_trans (inside_kid hm) (hps 4 p hn)) (by omega) hy
        cases hm'
        have := l_fieldLine (listElements (nth ps 4)).length i y
        exact ⟨by omega, h5⟩) hfs
      by_cases h5 : 5 ≤ ps.length
      · have g1 := masses_five h5
        have g2 := masses_kids fun m hm => (g.2 m hm).1
        have g3 := word_mass hname
        have g4 := l_record (k + 1) name fp fs.flatten
        rw [flatten_length] at g4
        rw [h3] at g1
        simp only [massOf] at g1
        have g5 := g.1
        have g6 : (6 * D + 200) * masses (kidsOf (nth ps 4)) ≤ (6 * D + 200) * massOf (nth ps 4) := Nat.mul_le_mul_left _ g2
        have g7 := up (Nat.le_trans (by simp only [massOf]; omega :
          massOf (nth ps 0) + mass p3 + massOf (nth ps 4) ≤ _) g1)
        rw [Nat.mul_add, Nat.mul_add] at g7
        have g8 : 2 * massOf (nth ps 0) ≤ (6 * D + 200) * massOf (nth ps 0) := Nat.mul_le_mul_right _ (by omega)
        omega
      · have e4 := nth_few (ps := ps) (by omega)
        rw [h3] at e4
        have := (g.2 m0 (by rw [e4]; exact nth_mem f2)).2
        exact absurd this f3
  rw [if_neg h1] at hs
  by_cases h1 : id = cordaId 6
  · rw [if_pos h1] at hs
    simp only [Res.ok.injEq] at hs
    subst hs
    simp only [List.length_nil]
    omega
  rw [if_neg h1] at hs
  split at hs
  · have h2 := h k _ s hroot (by simp [Node.val]) (by omega) hs
    rw [← masses_lt (a := .list) (ks := ps) (by simp), show masses ps + ink .list + 1 = masses ps + 1 from rfl, Nat.mul_add] at h2
    omega
  · cases hs

theorem avroIn_bound (D : Nat) (root : Node) : ∀ depth, Bounded D (mass root) depth root (avroIn depth)
  | 0 => fun k n s _ _ _ h => by cases h
  | depth + 1 => fun k n s hi ha hD h => by
    have ih := avroIn_bound D root depth
    obtain ⟨a, ks⟩ := n
    simp only [Node.val] at ha
    unfold avroIn at h
    simp only [kidsOf, Node.kids] at h ⊢
    split at h
    · next id e =>
      cases e0 : nth ks 0 with
      | none => rw [e0] at e; cases e
      | some m0 =>
        rw [e0] at e
        simp only [valueOf, Option.map_some, Option.some.injEq] at e
        replace h := Res.bind_eq_ok.mp h
        obtain ⟨ps, hp, h⟩ := h
        have e1 := list_of_parts hp
        rw [e1] at h
        have h1 := inside_bound ih (inside_trans (inside_nth (n := .mk a ks) e1) hi) (by omega) h
        have h2 := masses_two e0 e1 (by intro e'; rw [e'] at e; cases e)
        have h3 := masses_lt (a := .list) (ks := ps) (by simp)
        have h4 := masses_lt (a := a) (ks := ks) ha
        have h5 := mass_pos m0
        refine ⟨Nat.le_trans h1 (Nat.mul_le_mul_left _ (by omega)), m0, rfl, ?_⟩
        rw [e]; simp
    · next x e =>
      cases e0 : nth ks 0 with
      | none => rw [e0] at e; cases e
      | some m0 =>
        rw [e0] at e
        simp only [valueOf, Option.map_some, Option.some.injEq] at e
        simp only [Res.ok.injEq] at h
        have h1 := l_blob k x.length
        rw [h] at h1
        have h2 := ink_lt m0
        rw [e, ink] at h2
        have h3 := massOf_nth ks 0
        rw [e0, massOf] at h3
        have h4 := masses_lt (a := a) (ks := ks) ha
        have h5 : (6 * D + 200) * (x.length + 1) ≤ (6 * D + 200) * mass (.mk a ks) := Nat.mul_le_mul_left _ (by omega)
        have h6 := Nat.mul_add_one (6 * D + 200) x.length
        have h7 : x.length ≤ (6 * D + 200) * x.length := Nat.le_mul_of_pos_left _ (by omega)
        refine ⟨by omega, m0, rfl, ?_⟩
        rw [e]; simp
    · cases h

theorem height_mass : ∀ d (n : Node), n.height ≤ d → n.height ≤ mass n + 1
  | 0, n, h => by omega
  | d + 1, .mk a ks, h => by
    have key : ∀ k ∈ ks, k.height ≤ mass (.mk a ks) := by
      intro k hk
      have h1 := height_kids (v := a) hk
      have ih := height_mass d k (by omega)
      by_cases hs : solid k = true
      · have := solid_le (n := .mk a ks) hk hs
        omega
      · obtain ⟨b, js⟩ := k
        have : js = [] := by
          cases js with
          | nil => rfl
          | cons j js => exact absurd (solid_kid (n := .mk b (j :: js)) (i := 0) (m := j) rfl) hs
        subst this
        have h2 := mass_pos (.mk a ks)
        have h3 : (Node.mk b []).height ≤ 1 := by simp [Node.height, Node.height.heights]
        omega
    have : ∀ (H : Nat) (ks : List Node), (∀ k ∈ ks, k.height ≤ H) → Node.height.heights ks ≤ H := by
      intro H ks
      induction ks with
      | nil => intro _; simp [Node.height.heights]
      | cons j js ih =>
        intro hk
        simp only [Node.height.heights]
        exact Nat.max_le.mpr ⟨hk j List.mem_cons_self, ih fun k hk' => hk k (List.mem_cons_of_mem _ hk')⟩
    have := this _ ks key
    rw [Node.height]
    omega

theorem avroDump_length {n : Node} {s : Str} (h : avroDump n = .ok s) : s.length ≤ (30 * mass n + 250) * mass n := by
  unfold avroDump at h
  split at h
  · next e =>
    have h1 := height_mass _ n (Nat.le_refl _)
    have h2 := (avroIn_bound (4 * mass n + 3) n n.height 0 n s (.here n) (by rw [e]; simp) (by omega) h).1
    refine Nat.le_trans (by omega) (Nat.le_trans h2 (Nat.mul_le_mul_right _ (by omega)))
  · cases h

end Corda
