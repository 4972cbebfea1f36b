import Verif.Lemmas.Bulk
import Verif.Lemmas.OrderingR

/-
How much text an inspection can make.
-/

namespace Corda
open Spec

theorem inside_trans {a b c : Node} (h : Inside a b) (h' : Inside b c) : Inside a c := by
  induction h' with
  | here => exact h
  | deeper x ks k hk _ ih => exact .deeper x ks k hk ih

theorem inside_kid {n k : Node} (h : k ∈ n.kids) : Inside k n := by
  cases n
  exact .deeper _ _ k h (.here k)

theorem inside_nth {n k : Node} {i : Nat} (h : nth n.kids i = some k) : Inside k n := inside_kid (nth_mem h)

theorem complete_inside {ts : List TypeNotation} {m n : Node} (h : Complete ts n) (hi : Inside m n) : Complete ts m :=
  ⟨fun ks ns d c h1 => h.1 ks ns d c (inside_trans h1 hi), fun ks h1 => h.2 ks (inside_trans h1 hi)⟩

theorem commas_length (l : List Str) : (commas l).length ≤ (l.map fun s => s.length + 2).sum := by
  induction l with
  | nil => simp [commas]
  | cons a l ih =>
    cases l with
    | nil => simp [commas]
    | cons b l =>
      have e : commas (a :: b :: l) = a ++ ", ".toList ++ commas (b :: l) := by
        simp [commas, List.intercalate_cons_cons, List.append_assoc]
      rw [e, List.map_cons, List.sum_cons]
      simp only [List.length_append]
      have : (", ".toList).length = 2 := rfl
      omega

/-- The texts together, if each is not too long. -/
theorem all_length {α : Type} {K : Nat} {f : α → Res Str} {w : α → Nat} : ∀ (l : List α) (ss : List Str),
    (∀ a ∈ l, ∀ s, f a = .ok s → s.length + 2 ≤ K * w a) → all (l.map f) = .ok ss →
    (ss.map fun s => s.length + 2).sum ≤ K * (l.map w).sum
  | [], ss, _, h => by
    simp only [List.map_nil, all, Res.ok.injEq] at h
    subst h; simp
  | a :: l, ss, hw, h => by
    rw [List.map_cons, all] at h
    replace h := Res.bind_eq_ok.mp h
    obtain ⟨s, hs, h⟩ := h
    replace h := Res.bind_eq_ok.mp h
    obtain ⟨ss', hl, h⟩ := h
    simp only [Res.pure_eq, Res.ok.injEq] at h
    subst h
    have h1 := all_length l ss' (fun b hb => hw b (List.mem_cons_of_mem _ hb)) hl
    have h2 := hw a List.mem_cons_self s hs
    rw [List.map_cons, List.map_cons, List.sum_cons, List.sum_cons, Nat.mul_add]
    omega

theorem masses_append (a b : List Node) : masses (a ++ b) = masses a + masses b := by
  induction a with
  | nil => simp [masses]
  | cons x xs ih => rw [List.cons_append, masses, masses, ih]; omega

theorem sum_range_nth (ns : List Node) : ∀ m, m ≤ ns.length →
    ((List.range m).map fun i => massOf (nth ns i)).sum ≤ masses ns := by
  have key : ∀ m, m ≤ ns.length → ((List.range m).map fun i => massOf (nth ns i)).sum = masses (ns.take m) := by
    intro m
    induction m with
    | zero => intro _; simp [masses]
    | succ m ih =>
      intro h
      rw [List.range_succ, List.map_append, List.sum_append, ih (by omega), List.take_succ, masses_append]
      simp only [List.map_cons, List.map_nil, List.sum_cons, List.sum_nil]
      rw [nth_lt (by omega), List.getElem?_eq_getElem (by omega)]
      simp [massOf, masses]
  intro m h
  rw [key m h]
  have := masses_append (ns.take m) (ns.drop m)
  rw [List.take_append_drop] at this
  omega

theorem sum_zipIdx {α : Type} (g : Nat → Nat) (l : List α) :
    (l.zipIdx.map fun x => g x.2).sum = ((List.range l.length).map g).sum := by
  have : (l.zipIdx.map fun x => g x.2) = (l.zipIdx.map Prod.snd).map g := by rw [List.map_map]; rfl
  rw [this, List.zipIdx_map_snd, List.range_eq_range']

theorem sum_pairs (g : Nat → Nat) : ∀ q,
    ((List.range q).map fun i => g (2 * i) + g (2 * i + 1)).sum = ((List.range (2 * q)).map g).sum
  | 0 => rfl
  | q + 1 => by
    rw [List.range_succ, List.map_append, List.sum_append, sum_pairs g q, show 2 * (q + 1) = 2 * q + 1 + 1 by omega, List.range_succ,
      List.range_succ, List.map_append, List.map_append, List.sum_append, List.sum_append]
    simp only [List.map_cons, List.map_nil, List.sum_cons, List.sum_nil]
    omega

theorem length_colon (a b : Str) : (colon a b).length = a.length + 3 + b.length := by
  simp only [colon, List.length_append]; rfl

theorem length_braces (l : List Str) : (braces l).length = (commas l).length + 4 := by
  simp only [braces, List.length_append]
  have h1 : ("{ ".toList).length = 2 := rfl
  have h2 : (" }".toList).length = 2 := rfl
  omega

theorem length_brackets (l : List Str) : (brackets l).length = (commas l).length + 4 := by
  simp only [brackets, List.length_append]
  have h1 : ("[ ".toList).length = 2 := rfl
  have h2 : (" ]".toList).length = 2 := rfl
  omega

theorem length_quoted (s : Str) : (quoted s).length = s.length + 2 := by
  simp only [quoted, List.length_append]
  have h1 : ("\"".toList).length = 1 := rfl
  omega

theorem length_binaryText (n : Nat) : (binaryText n).length ≤ n + 21 := by
  have key : ∀ a b c : Str, a.length = 11 → b.length ≤ n + 1 → c.length = 9 → (a ++ b ++ c).length ≤ n + 21 := by
    intro a b c h1 h2 h3
    simp only [List.length_append]
    omega
  exact key _ _ _ rfl (length_decimalNat_le n) rfl

theorem primText_length {p : PrimReader} {n : Node} {s : Str} (h : primText p (some n) = .ok s) : s.length + 12 ≤ 34 * mass n := by
  have hi := ink_lt n
  unfold primText at h
  simp only [valueOf, Option.map_some] at h
  cases p with
  | float => cases h
  | int =>
    simp only [Res.ok.injEq] at h
    subst h
    split
    · next k e => simp only [Option.some.injEq] at e; rw [e, ink] at hi; omega
    · have := length_decimal (n := 0) (k := 0) (by decide); omega
  | long =>
    simp only [Res.ok.injEq] at h
    subst h
    split
    · next k e => simp only [Option.some.injEq] at e; rw [e, ink] at hi; omega
    · have := length_decimal (n := 0) (k := 0) (by decide); omega
  | double =>
    simp only [Res.ok.injEq] at h
    subst h
    split
    · next k e => simp only [Option.some.injEq] at e; rw [e, ink] at hi; omega
    · have : (doubleStr 0).length = 8 := by decide +kernel
      omega
  | boolean =>
    simp only [Res.ok.injEq] at h
    subst h
    have : ∀ b, (boolText b).length = 1 := by decide
    rw [this]; omega
  | binary =>
    simp only [Res.ok.injEq] at h
    subst h
    split
    · next k e =>
      simp only [Option.some.injEq] at e; rw [e, ink] at hi
      have := length_binaryText k.length
      omega
    · have := length_binaryText 0; omega
  | string =>
    dsimp only at h
    split at h
    · next e =>
      simp only [Option.some.injEq] at e; rw [e, ink] at hi
      simp only [Res.ok.injEq] at h; subst h
      rw [length_quoted]; omega
    · next e =>
      simp only [Option.some.injEq] at e; rw [e, ink] at hi
      simp only [Res.ok.injEq] at h; subst h
      rw [length_quoted]; omega
    · cases h

theorem described_of_parts {n : Node} {ks : List Node} (h : describedParts (some n) = .ok ks) : n = .mk .described ks := by
  obtain ⟨a, js⟩ := n
  simp only [describedParts, valueOf, Option.map_some, Node.val, kidsOf, Node.kids] at h
  split at h
  · next e =>
    simp only [Option.some.injEq] at e
    simp only [Res.ok.injEq] at h
    rw [e, h]
  · cases h

theorem list_of_parts {n : Option Node} {ks : List Node} (h : listParts n = .ok ks) : n = some (.mk .list ks) := by
  cases n with
  | none => cases h
  | some n =>
    obtain ⟨a, js⟩ := n
    simp only [listParts, valueOf, Option.map_some, Node.val, kidsOf, Node.kids] at h
    split at h
    · next e =>
      simp only [Option.some.injEq] at e
      simp only [Res.ok.injEq] at h
      rw [e, h]
    · cases h

theorem text_mass {n : Option Node} {s : Str} (h : textOf n = .ok s) : ∃ m, n = some m ∧ solid m = true ∧ s.length + 1 ≤ mass m := by
  cases n with
  | none => cases h
  | some n =>
    refine ⟨n, rfl, ?_⟩
    have hi := ink_lt n
    simp only [textOf, valueOf, Option.map_some] at h
    split at h
    · next e =>
      simp only [Option.some.injEq] at e
      simp only [Res.ok.injEq] at h
      subst h
      rw [e, ink] at hi
      exact ⟨by simp only [solid, e], hi⟩
    · next e =>
      simp only [Option.some.injEq] at e
      simp only [Res.ok.injEq] at h
      subst h
      rw [e, ink] at hi
      exact ⟨by simp only [solid, e], hi⟩
    · cases h

theorem solid_le {n k : Node} (hk : k ∈ n.kids) (h : solid k = true) : mass k + 1 ≤ mass n := by
  obtain ⟨a, ks⟩ := n
  simp only [Node.kids] at hk
  have h1 := mass_le_masses hk
  have h2 : mass k ≤ solids ks := by
    clear h1
    induction ks with
    | nil => cases hk
    | cons j js ih =>
      rw [solids]
      rcases List.mem_cons.mp hk with rfl | hk
      · rw [if_pos h]; omega
      · have := ih hk; omega
  rw [mass]
  split <;> omega

theorem described_mass {ks : List Node} {m : Node} {i : Nat} (h : nth ks i = some m) : mass m + 1 ≤ mass (.mk .described ks) := by
  have := massOf_nth ks i
  rw [h] at this
  have := masses_lt (a := .described) (ks := ks) (by simp)
  simp only [massOf, ink] at *
  omega

theorem enumText_length {n : Node} {s : Str} (h : enumText (some n) = .ok s) : s.length + 3 ≤ mass n := by
  unfold enumText at h
  replace h := Res.bind_eq_ok.mp h
  obtain ⟨ks, hk, h⟩ := h
  have hn := described_of_parts hk
  subst hn
  split at h
  · split at h <;> cases h
  · replace h := Res.bind_eq_ok.mp h
    obtain ⟨_, -, h⟩ := h
    obtain ⟨m, hm, hs, hl⟩ := text_mass h
    cases hb : nth ks 1 with
    | none => rw [hb] at hm; cases hm
    | some b =>
      rw [hb] at hm
      have h1 := solid_le (nth_mem hm) hs
      have h2 := described_mass hb
      omega

theorem keyText_length {named : Bool} {n : Option Node} {s : Str} (h : keyText named n = .ok s) : s.length = 16 := by
  unfold keyText at h
  split at h
  · replace h := Res.bind_eq_ok.mp h
    obtain ⟨ks, -, h⟩ := h
    split at h
    · simp only [Res.ok.injEq] at h; subst h; rfl
    · cases h
  · cases h

theorem typeWith_mem {ts : List TypeNotation} {d : Str} {u : TypeNotation} (h : typeWith ts d = .ok u) : u ∈ ts := by
  unfold typeWith at h
  split at h
  · next e => simp only [Res.ok.injEq] at h; subst h; exact List.mem_of_find?_eq_some e
  · cases h

/-- Where a name has no text there is none; otherwise it is that of the texts. -/
theorem textUnder_ok {texts : Texts} {named : Bool} {ref : Option Str} {n : Option Node} {s : Str}
    (h : textUnder texts named ref n = .ok s) : ∃ t, texts named t n = .ok s := by
  unfold textUnder at h
  split at h
  · exact ⟨_, h⟩
  · split at h <;> cases h

theorem textIn_length {leftFirst : Bool} {ts : List TypeNotation} {T : Table} {L : Nat}
    (hL : ∀ c, .comp c ∈ ts → ∀ f ∈ c.fields, f.name.length ≤ L) : ∀ depth named t n s, Complete ts n →
    textIn leftFirst ts T depth named t (some n) = .ok s → s.length + L + 5 ≤ (L + 40) * mass n
  | 0, _, _, _, _, _, h => by cases h
  | depth + 1, named, t, n, s, hc, h => by
    have ih := textIn_length hL (leftFirst := leftFirst) (T := T) depth
    have hpos := mass_pos n
    have up : ∀ x, x + 1 ≤ mass n → (L + 40) * x + (L + 40) ≤ (L + 40) * mass n := fun x hx => by
      have := Nat.mul_le_mul_left (L + 40) hx
      rwa [Nat.mul_add, Nat.mul_one] at this
    have low : ∀ x, x + 12 ≤ 34 * mass n → x + L + 5 ≤ (L + 40) * mass n := fun x hx => by
      rw [Nat.add_mul]
      have := Nat.mul_le_mul_left L hpos
      omega
    unfold textIn at h
    split at h
    · cases h
    · have := keyText_length h
      exact low _ (by omega)
    · exact low _ (primText_length h)
    · next c _ =>
      split at h
      · simp only [Res.ok.injEq] at h
        subst h
        have : absent.length = 8 := rfl
        exact low _ (by omega)
      · rw [Res.map_eq] at h
        replace h := Res.bind_eq_ok.mp h
        obtain ⟨l, h, hs⟩ := h
        simp only [Res.ok.injEq] at hs
        subst hs
        unfold propertyTexts at h
        replace h := Res.bind_eq_ok.mp h
        obtain ⟨ks, hk, h⟩ := h
        replace h := Res.bind_eq_ok.mp h
        obtain ⟨d, hd, h⟩ := h
        replace h := Res.bind_eq_ok.mp h
        obtain ⟨u, hu, h⟩ := h
        have hn := described_of_parts hk
        subst hn
        split at h
        · cases h
        · next c' =>
          split at h
          · next hlen =>
            replace h := Res.bind_eq_ok.mp h
            obtain ⟨ns, hns, h⟩ := h
            have hfull := hc.1 ks ns d c' (.here _) hd hu hns
            have hl := list_of_parts hns
            have hmem := typeWith_mem hu
            have h1 := described_mass hl
            have h2 := masses_lt (a := .list) (ks := ns) (by simp)
            have h3 := all_length (K := L + 40) (w := fun x => massOf (nth ns x.2)) _ _ ?_ h
            · have h4 := commas_length l
              rw [sum_zipIdx (fun i => massOf (nth ns i))] at h3
              have h5 := sum_range_nth ns _ (show (c'.fields.zip c.fields).length ≤ ns.length by simp; omega)
              have h6 := Nat.mul_le_mul_left (L + 40) h5
              have h7 := up (masses ns) (by simp only [ink] at h2; omega)
              rw [length_braces]
              omega
            · intro x hx s hs
              rw [Res.map_eq] at hs
              replace hs := Res.bind_eq_ok.mp hs
              obtain ⟨s', hs', hs⟩ := hs
              simp only [Res.ok.injEq] at hs
              subst hs
              obtain ⟨t', ht'⟩ := textUnder_ok hs'
              have hx2 := List.mem_zipIdx (x := x.1) (i := x.2) hx
              have hlt : x.2 < ns.length := by
                have := hx2.2.1; simp only [List.length_zip] at this; omega
              rw [nth_lt hlt, List.getElem?_eq_getElem hlt] at ht' ⊢
              have hin : Inside ns[x.2] (.mk .described ks) :=
                inside_trans (inside_kid (n := .mk .list ns) (List.getElem_mem hlt)) (inside_nth (n := .mk .described ks) hl)
              have h8 := ih true t' _ s' (complete_inside hc hin) ht'
              have hf : x.1.1.name.length ≤ L := by
                refine hL c' hmem _ ?_
                have := List.fst_mem_of_mem_zipIdx hx
                exact (List.of_mem_zip this).1
              rw [length_colon]
              simp only [massOf]
              omega
          · cases h
    · next r _ =>
      have lists : ∀ l, (brackets <$> elementTexts ts (textIn leftFirst ts T depth) l (some n)) = .ok s →
          s.length + L + 5 ≤ (L + 40) * mass n := by
        clear h
        intro l h
        rw [Res.map_eq] at h
        replace h := Res.bind_eq_ok.mp h
        obtain ⟨ss, h, hs⟩ := h
        simp only [Res.ok.injEq] at hs
        subst hs
        unfold elementTexts at h
        replace h := Res.bind_eq_ok.mp h
        obtain ⟨b, hb, h⟩ := h
        unfold body at hb
        replace hb := Res.bind_eq_ok.mp hb
        obtain ⟨ks, hk, hb⟩ := hb
        replace hb := Res.bind_eq_ok.mp hb
        obtain ⟨_, -, hb⟩ := hb
        replace hb := Res.bind_eq_ok.mp hb
        obtain ⟨_, -, hb⟩ := hb
        simp only [Res.pure_eq, Res.ok.injEq] at hb
        have hn := described_of_parts hk
        subst hn
        have h4 := commas_length ss
        rw [length_brackets]
        cases hbn : b with
        | none =>
          rw [hbn] at h
          simp only [listElements, valueOf, Option.map_none, List.map_nil, all, Res.ok.injEq] at h
          subst h
          simp only [List.map_nil, List.sum_nil] at h4
          have := up 0 (by omega)
          omega
        | some m =>
          rw [hbn] at hb h
          have h1 := described_mass hb
          have hin : ∀ k ∈ m.kids, Complete ts k := fun k hk => complete_inside hc
            (inside_trans (inside_kid hk) (inside_nth (n := .mk .described ks) hb))
          by_cases hm : m.val = .list
          · have hle : listElements (some m) = m.kids := by
              simp only [listElements, valueOf, Option.map_some, hm, kidsOf]
            rw [hle] at h
            have h3 := all_length (K := L + 40) (w := fun k => mass k) _ _ (fun k hk s hs => by
              obtain ⟨t', ht'⟩ := textUnder_ok hs
              have := ih false t' k s (hin k hk) ht'
              omega) h
            have h5 : (m.kids.map fun k => mass k).sum = masses m.kids := by
              generalize m.kids = l
              induction l with
              | nil => rfl
              | cons x xs ih => rw [List.map_cons, List.sum_cons, masses, ih]
            rw [h5] at h3
            obtain ⟨a, js⟩ := m
            have h2 := masses_lt (a := a) (ks := js) (by simp only [Node.val] at hm; simp [hm])
            have h7 := up (masses js) (by omega)
            simp only [Node.kids] at h3
            omega
          · have hle : listElements (some m) = [] := by
              simp only [listElements, valueOf, Option.map_some]
              split
              · next e => simp only [Option.some.injEq] at e; exact absurd e hm
              · rfl
            rw [hle] at h
            simp only [List.map_nil, all, Res.ok.injEq] at h
            subst h
            simp only [List.map_nil, List.sum_nil] at h4
            have := up 0 (by omega)
            omega
      split at h
      · have := enumText_length h
        exact low _ (by omega)
      · exact lists _ h
      · exact lists _ h
      · next k v _ =>
        rw [Res.map_eq] at h
        replace h := Res.bind_eq_ok.mp h
        obtain ⟨ss, h, hs⟩ := h
        simp only [Res.ok.injEq] at hs
        subst hs
        unfold entryTexts at h
        replace h := Res.bind_eq_ok.mp h
        obtain ⟨b, hb, h⟩ := h
        unfold body at hb
        replace hb := Res.bind_eq_ok.mp hb
        obtain ⟨ks, hk, hb⟩ := hb
        replace hb := Res.bind_eq_ok.mp hb
        obtain ⟨_, -, hb⟩ := hb
        replace hb := Res.bind_eq_ok.mp hb
        obtain ⟨_, -, hb⟩ := hb
        simp only [Res.pure_eq, Res.ok.injEq] at hb
        have hn := described_of_parts hk
        subst hn
        have h4 := commas_length ss
        rw [length_braces]
        have none_case : mapParts b = [] → (commas ss).length + 4 + L + 5 ≤ (L + 40) * mass (.mk .described ks) := by
          intro hle
          simp only [hle, List.length_nil, Nat.reduceAdd, Nat.reduceDiv, List.range_zero, List.map_nil, all, Res.ok.injEq] at h
          subst h
          simp only [List.map_nil, List.sum_nil] at h4
          have := up 0 (by omega)
          omega
        cases hbn : b with
        | none => exact none_case (by rw [hbn]; rfl)
        | some m =>
          by_cases hm : m.val = .map
          · obtain ⟨a, ns⟩ := m
            simp only [Node.val] at hm
            subst hm
            rw [hbn] at hb h
            have h1 := described_mass hb
            have hin : ∀ i (hi : i < ns.length), Complete ts ns[i] := fun i hi => complete_inside hc
              (inside_trans (inside_kid (n := .mk .map ns) (List.getElem_mem hi)) (inside_nth (n := .mk .described ks) hb))
            have hev := hc.2 ns (inside_nth (n := .mk .described ks) hb)
            have hle : mapParts (some (.mk .map ns)) = ns := rfl
            simp only [hle] at h
            have one : ∀ ref i s, i < ns.length → textUnder (textIn leftFirst ts T depth) false ref (nth ns i) = .ok s →
                s.length + L + 5 ≤ (L + 40) * massOf (nth ns i) := by
              intro ref i s hi hs
              obtain ⟨t', ht'⟩ := textUnder_ok hs
              rw [nth_lt hi, List.getElem?_eq_getElem hi] at ht' ⊢
              exact ih false t' _ s (hin i hi) ht'
            have h3 := all_length (K := L + 40) (w := fun i => massOf (nth ns (2 * i)) + massOf (nth ns (2 * i + 1))) _ _ ?_ h
            · rw [sum_pairs (fun i => massOf (nth ns i))] at h3
              have h5 := sum_range_nth ns (2 * ((ns.length + 1) / 2)) (by omega)
              have h6 := Nat.mul_le_mul_left (L + 40) h5
              have h2 := masses_lt (a := .map) (ks := ns) (by simp)
              have h7 := up (masses ns) (by omega)
              omega
            · intro i hi s hs
              have hi' := List.mem_range.mp hi
              rw [Nat.mul_add]
              split at hs
              · replace hs := Res.bind_eq_ok.mp hs
                obtain ⟨x, hx, hs⟩ := hs
                replace hs := Res.bind_eq_ok.mp hs
                obtain ⟨y, hy, hs⟩ := hs
                simp only [Res.pure_eq, Res.ok.injEq] at hs
                subst hs
                have := one _ _ _ (by omega) hx
                have := one _ _ _ (by omega) hy
                rw [length_colon]
                omega
              · replace hs := Res.bind_eq_ok.mp hs
                obtain ⟨x, hx, hs⟩ := hs
                replace hs := Res.bind_eq_ok.mp hs
                obtain ⟨y, hy, hs⟩ := hs
                simp only [Res.pure_eq, Res.ok.injEq] at hs
                subst hs
                have := one _ _ _ (by omega) hx
                have := one _ _ _ (by omega) hy
                rw [length_colon]
                omega
          · refine none_case ?_
            rw [hbn]
            simp only [mapParts, valueOf, Option.map_some]
            split
            · next e => simp only [Option.some.injEq] at e; exact absurd e hm
            · rfl

end Corda
