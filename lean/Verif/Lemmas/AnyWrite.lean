import Verif.Lemmas.Writer
import Verif.Spec.AnyWrite

/-
The state of a blob that is written to, and the ledger of what was written.
-/

namespace Corda
open Corda.Spec Wr

/-! ### Orders -/

section orders
variable {α : Type} [DecidableEq α] {lt : α → α → Bool}

theorem mem_placed (x y : α) (l : List α) : y ∈ placed lt x l ↔ y = x ∨ y ∈ l := by
  induction l with
  | nil => simp [placed]
  | cons z l ih =>
    unfold placed
    by_cases h : x = z
    · subst h; simp
    · by_cases g : lt x z = true
      · simp [h, g]
      · simp only [if_neg h, if_neg g, List.mem_cons, ih]
        exact or_left_comm

theorem mem_orderly (y : α) (l : List α) : y ∈ orderly lt l ↔ y ∈ l := by
  induction l with
  | nil => simp [orderly]
  | cons x l ih =>
    have : orderly lt (x :: l) = placed lt x (orderly lt l) := rfl
    rw [this, mem_placed, ih, List.mem_cons]

theorem placed_sorted (ho : StrictOrder lt) (x : α) (l : List α) (h : l.Pairwise fun a b => lt a b = true) :
    (placed lt x l).Pairwise fun a b => lt a b = true := by
  induction l with
  | nil => simp [placed]
  | cons z l ih =>
    rw [List.pairwise_cons] at h
    unfold placed
    by_cases e : x = z
    · rw [if_pos e, List.pairwise_cons]; exact h
    · rw [if_neg e]
      by_cases g : lt x z = true
      · rw [if_pos g, List.pairwise_cons, List.pairwise_cons]
        refine ⟨fun a ha => ?_, h⟩
        rcases List.mem_cons.1 ha with rfl | ha
        · exact g
        · exact ho.trans _ _ _ g (h.1 a ha)
      · rw [if_neg g, List.pairwise_cons]
        refine ⟨fun a ha => ?_, ih h.2⟩
        rcases (mem_placed x a l).1 ha with rfl | ha
        · cases hz : lt z a with
          | true => rfl
          | false => exact absurd (ho.total _ _ (by simpa using g) hz) e
        · exact h.1 a ha

theorem orderly_sorted (ho : StrictOrder lt) (l : List α) : (orderly lt l).Pairwise fun a b => lt a b = true := by
  induction l with
  | nil => simp [orderly]
  | cons x l ih => exact placed_sorted ho x _ ih

omit [DecidableEq α] in
theorem lookup_head {ν : Type} [BEq α] [LawfulBEq α] (x : α × ν) (l : List (α × ν)) : (x :: l).lookup x.1 = some x.2 := by
  obtain ⟨a, b⟩ := x
  simp [List.lookup_cons]

omit [DecidableEq α] in
theorem lookup_tail {ν : Type} [BEq α] [LawfulBEq α] (x : α × ν) (l : List (α × ν)) {k : α} (h : k ≠ x.1) : (x :: l).lookup k = l.lookup k := by
  obtain ⟨a, b⟩ := x
  have : (k == a) = false := by simpa using h
  simp [List.lookup_cons, this]

/-- Two maps in the same order with the same entries. -/
theorem sortedMap_ext {ν : Type} [BEq α] [LawfulBEq α] (ho : StrictOrder lt) : ∀ (a b : List (α × ν)), SortedMap lt a → SortedMap lt b →
    (∀ k, a.lookup k = b.lookup k) → a = b
  | [], [], _, _, _ => rfl
  | [], y :: b, _, _, h => by have := h y.1; rw [lookup_head] at this; cases this
  | x :: a, [], _, _, h => by have := h x.1; rw [lookup_head] at this; cases this
  | x :: a, y :: b, ha, hb, h => by
    rw [SortedMap, List.pairwise_cons] at ha hb
    have none_of : ∀ (k : α) (m : List (α × ν)), (∀ e ∈ m, lt k e.1 = true) → m.lookup k = none := by
      intro k m hm
      rw [lookup_none_iff]
      intro e he g
      have := hm e he
      rw [g, ho.irrefl] at this
      cases this
    have hk : x.1 = y.1 := by
      apply Classical.byContradiction
      intro hne
      cases hl : lt x.1 y.1 with
      | true =>
        have h1 := h x.1
        have h2 : (y :: b).lookup x.1 = none := none_of _ _ (fun e he => by
          rcases List.mem_cons.1 he with rfl | he
          · exact hl
          · exact ho.trans _ _ _ hl (hb.1 e he))
        rw [h2, lookup_head] at h1
        cases h1
      | false =>
        have hl' : lt y.1 x.1 = true := by
          cases g : lt y.1 x.1 with
          | true => rfl
          | false => exact absurd (ho.total _ _ hl g) hne
        have h1 := h y.1
        have h2 : (x :: a).lookup y.1 = none := none_of _ _ (fun e he => by
          rcases List.mem_cons.1 he with rfl | he
          · exact hl'
          · exact ho.trans _ _ _ hl' (ha.1 e he))
        rw [h2, lookup_head] at h1
        cases h1
    have hv : x = y := by
      have h1 := h x.1
      rw [lookup_head, hk, lookup_head] at h1
      exact Prod.ext hk (Option.some.inj h1)
    subst hv
    rw [sortedMap_ext ho a b ha.2 hb.2 (fun k => ?_)]
    have h1 := h k
    by_cases g : k = x.1
    · rw [g, none_of _ _ ha.1, none_of _ _ hb.1]
    · rwa [lookup_tail _ _ g, lookup_tail _ _ g] at h1

theorem lookup_keys {ν : Type} [BEq α] [LawfulBEq α] (l : List α) (f : α → ν) (k : α) :
    (l.map fun x => (x, f x)).lookup k = if k ∈ l then some (f k) else none := by
  induction l with
  | nil => rfl
  | cons x l ih =>
    simp only [List.map_cons, List.lookup_cons]
    by_cases h : k = x
    · subst h; simp
    · have : (k == x) = false := by simpa using h
      simp only [this, ih, List.mem_cons, h, false_or]

end orders

/-! ### The ledger and the map -/

/-- The map says what the ledger says. -/
structure Kept (L : Ledger) (m : Schemas) : Prop where
  sorted : SortedMap keyLt m
  absent : ∀ k, L.classes.lookup k = none → m.lookup k = none ∧ ∀ n, descOf L.props k n = none
  container : ∀ k src, L.classes.lookup k = some (some src) → m.lookup k = some (.list src)
  composite : ∀ k, L.classes.lookup k = some none →
    ∃ fs, m.lookup k = some (.comp fs) ∧ SortedMap strLt fs ∧ ∀ n, fs.lookup n = descOf L.props k n

theorem kept_new : Kept newLedger [] :=
  ⟨by simp [SortedMap], fun _ _ => ⟨rfl, fun _ => rfl⟩, fun _ _ h => (by cases h), fun _ h => (by cases h)⟩

/-- An object of a class. -/
theorem kept_class {L : Ledger} {m : Schemas} (h : Kept L m) (key : Str × Str) (kind : Option Str) (b : Blob)
    (hb : b = match kind with | none => .comp [] | some src => .list src) :
    ∃ m', runEvent m (.reg key b) = .ok m' ∧ Kept { L with classes := L.classes ++ [(key, kind)] } m' := by
  have hl : ∀ k, (L.classes ++ [(key, kind)]).lookup k
      = (L.classes.lookup k).or (if k = key then some kind else none) := by
    intro k
    rw [List.lookup_append]
    congr 1
    by_cases e : k = key
    · subst e; simp [List.lookup_cons]
    · have : (k == key) = false := by simpa using e
      simp [List.lookup_cons, this, e]
  cases hm : m.lookup key with
  | some x =>
    have hs : L.classes.lookup key ≠ none := fun g => by rw [(h.absent key g).1] at hm; cases hm
    have hl' : ∀ k, (L.classes ++ [(key, kind)]).lookup k = L.classes.lookup k := by
      intro k
      rw [hl]
      by_cases e : k = key
      · subst e
        cases g : L.classes.lookup k with
        | none => exact absurd g hs
        | some y => rfl
      · simp [e]
    refine ⟨m, by simp only [runEvent, hm], h.sorted, ?_, ?_, ?_⟩
    · intro k hk; exact h.absent k (by rw [← hl']; exact hk)
    · intro k src hk; exact h.container k src (by rw [← hl']; exact hk)
    · intro k hk; exact h.composite k (by rw [← hl']; exact hk)
  | none =>
    have hs : L.classes.lookup key = none := by
      cases g : L.classes.lookup key with
      | none => rfl
      | some y =>
        cases y with
        | none => obtain ⟨fs, h1, -⟩ := h.composite key g; rw [h1] at hm; cases hm
        | some src => rw [h.container key src g] at hm; cases hm
    have hp : ∀ k, (mapPut keyLt key b m).lookup k = if k = key then some b else m.lookup k := fun k => by
      rw [lookup_mapPut keyLt key b m k hm]
    refine ⟨mapPut keyLt key b m, by simp only [runEvent, hm], sorted_mapPut keyOrder key b m hm h.sorted, ?_, ?_, ?_⟩
    · intro k hk
      rw [hl] at hk
      by_cases e : k = key
      · subst e; rw [hs] at hk; simp at hk
      · rw [hp, if_neg e]; exact h.absent k (by simpa [e] using hk)
    · intro k src hk
      rw [hl] at hk
      by_cases e : k = key
      · subst e
        rw [hs] at hk
        simp only [if_true, Option.none_or, Option.some.injEq] at hk
        subst hk
        rw [hp, if_pos rfl, hb]
      · rw [hp, if_neg e]; exact h.container k src (by simpa [e] using hk)
    · intro k hk
      rw [hl] at hk
      by_cases e : k = key
      · subst e
        rw [hs] at hk
        simp only [if_true, Option.none_or, Option.some.injEq] at hk
        subst hk
        exact ⟨[], by rw [hp, if_pos rfl, hb], by simp [SortedMap], fun n => ((h.absent k hs).2 n).symm⟩
      · rw [hp, if_neg e]; exact h.composite k (by simpa [e] using hk)

/-- A property of a class that can have it. -/
theorem kept_prop {L : Ledger} {m : Schemas} (h : Kept L m) (key : Str × Str) (d : PropDesc)
    (hk : L.classes.lookup key = some none) :
    ∃ m', runEvent m (.prop key d.name [d.tree]) = .ok m' ∧ Kept { L with props := L.props ++ [(key, d)] } m' := by
  obtain ⟨fs, h1, h2, h3⟩ := h.composite key hk
  have hd : ∀ k n, descOf (L.props ++ [(key, d)]) k n
      = (descOf L.props k n).or (if key = k ∧ d.name = n then some [d.tree] else none) := by
    intro k n; rw [descOf_append, descOf_one]
  have ha : ∀ k, L.classes.lookup k = none → ∀ n, descOf (L.props ++ [(key, d)]) k n = none := by
    intro k hk' n
    have : key ≠ k := by rintro rfl; rw [hk] at hk'; cases hk'
    rw [hd, (h.absent k hk').2 n]
    simp [this]
  have ho : ∀ k, key ≠ k → ∀ n, descOf (L.props ++ [(key, d)]) k n = descOf L.props k n := by
    intro k e n
    rw [hd]
    simp [e]
  cases hf : fs.lookup d.name with
  | some x =>
    refine ⟨m, by simp only [runEvent, h1, hf], h.sorted, fun k hk' => ⟨(h.absent k hk').1, ha k hk'⟩, h.container, ?_⟩
    intro k hk'
    by_cases e : key = k
    · subst e
      refine ⟨fs, h1, h2, fun n => ?_⟩
      rw [hd, ← h3]
      by_cases g : d.name = n
      · subst g; rw [hf]; rfl
      · simp [g]
    · obtain ⟨gs, g1, g2, g3⟩ := h.composite k hk'
      exact ⟨gs, g1, g2, fun n => by rw [ho k e, g3]⟩
  | none =>
    have hs : ∀ k, (mapSet key (.comp (mapPut strLt d.name [d.tree] fs)) m).lookup k
        = if k = key then some (.comp (mapPut strLt d.name [d.tree] fs)) else m.lookup k := by
      intro k
      rw [lookup_mapSet]
      by_cases e : k = key
      · subst e; simp [h1]
      · simp [e]
    refine ⟨mapSet key (.comp (mapPut strLt d.name [d.tree] fs)) m, by simp only [runEvent, h1, hf],
      sorted_mapSet _ _ _ h.sorted, fun k hk' => ⟨?_, ha k hk'⟩, ?_, ?_⟩
    · have : k ≠ key := by rintro rfl; rw [hk] at hk'; cases hk'
      rw [hs, if_neg this]
      exact (h.absent k hk').1
    · intro k src hk'
      have : k ≠ key := by rintro rfl; rw [hk] at hk'; cases hk'
      rw [hs, if_neg this]
      exact h.container k src hk'
    · intro k hk'
      by_cases e : key = k
      · subst e
        refine ⟨_, by rw [hs, if_pos rfl], sorted_mapPut strOrder _ _ _ hf h2, fun n => ?_⟩
        rw [lookup_mapPut strLt _ _ _ _ hf, hd, ← h3]
        by_cases g : d.name = n
        · subst g; rw [hf]; simp
        · have : n ≠ d.name := fun x => g x.symm
          simp [g, this]
      · obtain ⟨gs, g1, g2, g3⟩ := h.composite k hk'
        have : k ≠ key := fun x => e x.symm
        exact ⟨gs, by rw [hs, if_neg this]; exact g1, g2, fun n => by rw [ho k e, g3]⟩

/-! ### The schema -/

theorem firstProp_none {ps : List ((Str × Str) × PropDesc)} {k : Str × Str} {n : Str} :
    firstProp ps k n = none ↔ n ∉ (ps.filter (·.1 = k)).map (·.2.name) := by
  unfold firstProp
  rw [List.findSome?_eq_none_iff]
  simp only [List.mem_map, List.mem_filter, decide_eq_true_eq, not_exists, not_and]
  constructor
  · intro h e he hn
    have := h e he.1
    simp [he.2, hn] at this
  · intro h e he
    by_cases hc : e.1 = k ∧ e.2.name = n
    · exact absurd hc.2 (h e ⟨he, hc.1⟩)
    · simp [hc]

/-- The properties of a class, in order. -/
theorem fields_eq (ps : List ((Str × Str) × PropDesc)) (k : Str × Str) (fs : List (Str × List Node)) (hs : SortedMap strLt fs)
    (h : ∀ n, fs.lookup n = descOf ps k n) :
    ((orderly strLt ((ps.filter (·.1 = k)).map (·.2.name))).filterMap (firstProp ps k)).map (fun p => (p.name, [p.tree])) = fs := by
  generalize hN : orderly strLt ((ps.filter (·.1 = k)).map (·.2.name)) = N
  have hm : ∀ n, n ∈ N ↔ firstProp ps k n ≠ none := by
    intro n
    rw [← hN, mem_orderly, ne_eq, firstProp_none, Classical.not_not]
  have hso : N.Pairwise fun a b => strLt a b = true := by rw [← hN]; exact orderly_sorted strOrder _
  have e : (N.filterMap (firstProp ps k)).map (fun p => (p.name, [p.tree]))
      = N.map (fun n => (n, (descOf ps k n).getD [])) := by
    have : ∀ M : List Str, (∀ n ∈ M, firstProp ps k n ≠ none) →
        (M.filterMap (firstProp ps k)).map (fun p => (p.name, [p.tree])) = M.map (fun n => (n, (descOf ps k n).getD [])) := by
      intro M hM
      induction M with
      | nil => rfl
      | cons n M ih =>
        have h1 := hM n (List.mem_cons_self ..)
        cases hp : firstProp ps k n with
        | none => exact absurd hp h1
        | some p =>
          have hn : p.name = n := firstProp_name hp
          rw [List.filterMap_cons_some hp, List.map_cons, List.map_cons, ih fun x hx => hM x (List.mem_cons_of_mem _ hx)]
          simp only [descOf, hp, Option.map_some, Option.getD_some, hn]
    exact this N fun n hn => (hm n).1 hn
  rw [e]
  refine sortedMap_ext strOrder _ _ ?_ hs fun n => ?_
  · rw [SortedMap, List.pairwise_map]; exact hso
  · rw [h, lookup_keys]
    by_cases g : n ∈ N
    · rw [if_pos g]
      cases hp : firstProp ps k n with
      | none => exact absurd hp ((hm n).1 g)
      | some p => simp [descOf, hp]
    · rw [if_neg g]
      have : firstProp ps k n = none := by
        apply Classical.byContradiction
        exact fun x => g ((hm n).2 x)
      simp [descOf, this]

theorem describe_key (L : Ledger) (k : Str × Str) : (L.describe k).key = k := by
  unfold Ledger.describe
  cases L.classes.lookup k with
  | none => rfl
  | some x => cases x <;> rfl

/-- The map holds the descriptions. -/
theorem kept_eq {L : Ledger} {m : Schemas} (h : Kept L m) : m = L.descriptions.map ClassDesc.entry := by
  have e : L.descriptions.map ClassDesc.entry
      = (orderly keyLt (L.classes.map Prod.fst)).map (fun k => (k, (ClassDesc.entry (L.describe k)).2)) := by
    unfold Ledger.descriptions
    rw [List.map_map]
    apply List.map_congr_left
    intro k _
    exact Prod.ext ((ClassDesc.entry_fst _).trans (describe_key L k)) rfl
  rw [e]
  refine sortedMap_ext keyOrder _ _ h.sorted ?_ fun k => ?_
  · rw [SortedMap, List.pairwise_map]; exact orderly_sorted keyOrder _
  · rw [lookup_keys]
    have hm : k ∈ orderly keyLt (L.classes.map Prod.fst) ↔ L.classes.lookup k ≠ none := by
      rw [mem_orderly, mem_classes_lookup]
    cases hl : L.classes.lookup k with
    | none => rw [if_neg (by rw [hm, hl]; simp)]; exact (h.absent k hl).1
    | some x =>
      rw [if_pos (by rw [hm, hl]; simp)]
      cases x with
      | some src =>
        rw [h.container k src hl]
        simp only [Ledger.describe, hl, ClassDesc.entry]
      | none =>
        obtain ⟨fs, h1, h2, h3⟩ := h.composite k hl
        rw [h1]
        simp only [Ledger.describe, hl, ClassDesc.entry]
        rw [fields_eq L.props k fs h2 h3]

/-! ### Writing -/

/-- The step writes what is described. -/
def WritesAs (p : Wr) (a : Pen) : Prop :=
  ∀ (s : WState) (L : Ledger), Kept L s.schemas → s.payload.rest = [] →
    match a L with
    | (.ub w, _) => (p s).1 = .ub w
    | (r, ns, L') => ∃ m, p s = (r, ⟨s.payload.append ns, m⟩) ∧ Kept L' m

/-- The part of it that is not undefined. -/
theorem WritesAs.defined {p : Wr} {a : Pen} (h : WritesAs p a) {s : WState} {L : Ledger} (hk : Kept L s.schemas)
    (hr : s.payload.rest = []) (hd : ∀ w, (a L).1 ≠ .ub w) :
    ∃ m, p s = ((a L).1, ⟨s.payload.append (a L).2.1, m⟩) ∧ Kept (a L).2.2 m := by
  have := h s L hk hr
  generalize a L = x at this hd
  obtain ⟨r, ns, L'⟩ := x
  cases r with
  | ub w => exact absurd rfl (hd w)
  | ok u => exact this
  | throw e => exact this

theorem WritesAs.undefined {p : Wr} {a : Pen} (h : WritesAs p a) {s : WState} {L : Ledger} (hk : Kept L s.schemas)
    (hr : s.payload.rest = []) {w : String} (hd : (a L).1 = .ub w) : (p s).1 = .ub w := by
  have := h s L hk hr
  generalize a L = x at this hd
  obtain ⟨r, ns, L'⟩ := x
  simp only at hd
  subst hd
  exact this

theorem writesAs_then {p q : Wr} {a b : Pen} (hp : WritesAs p a) (hq : WritesAs q b) : WritesAs (seq p q) (a.then b) := by
  intro s L hk hr
  have h1 := hp s L hk hr
  unfold Pen.then seq
  rcases ha : a L with ⟨r, ns, L'⟩
  rw [ha] at h1
  cases r with
  | ub w =>
    simp only at h1 ⊢
    rcases hx : p s with ⟨r', s'⟩
    rw [hx] at h1
    simp only at h1
    subst h1
    rfl
  | throw e =>
    obtain ⟨m, h1, h2⟩ := h1
    simp only [h1]
    exact ⟨m, rfl, h2⟩
  | ok u =>
    obtain ⟨m, h1, h2⟩ := h1
    simp only [h1]
    have hr' : (s.payload.append ns).rest = [] := Cursor.append_rest ns _ hr
    have h3 := hq ⟨s.payload.append ns, m⟩ L' h2 hr'
    rcases hb : b L' with ⟨r', ns', L''⟩
    rw [hb] at h3
    have e : (s.payload.append ns).append ns' = s.payload.append (ns ++ ns') := by simp [Cursor.append, List.foldl_append]
    cases r' with
    | ub w => exact h3
    | throw e' => obtain ⟨m', h3, h4⟩ := h3; exact ⟨m', by rw [h3, e], h4⟩
    | ok u' => obtain ⟨m', h3, h4⟩ := h3; exact ⟨m', by rw [h3, e], h4⟩

theorem writesAs_nothing : WritesAs skip Pen.nothing := fun s _ hk _ => ⟨s.schemas, rfl, hk⟩

theorem writesAs_put (v : Atom) : WritesAs (data (Cursor.put v)) (Pen.put (.mk v [])) := fun s _ hk _ => ⟨s.schemas, rfl, hk⟩

theorem writesAs_print (b : Bool) : WritesAs (trace b) (Pen.print b) := by
  intro s L hk hr
  cases b with
  | true => exact ⟨s.schemas, rfl, hk⟩
  | false => rfl

theorem property_run (key : Str × Str) (name : Str) (desc : List Node) (s : WState) :
    property key name desc s = match runEvent s.schemas (.prop key name desc) with
      | .ok m => (.ok (), ⟨s.payload, m⟩)
      | .throw e => (.throw e, s)
      | .ub w => (.ub w, s) := by
  unfold property
  simp only [runEvent]
  cases hl : s.schemas.lookup key with
  | none => rfl
  | some b =>
    cases b with
    | list src => rfl
    | comp fs =>
      simp only
      cases fs.lookup name <;> rfl

theorem nullDesc_eq (n t : Str) : nullDesc n t = [PropDesc.tree ⟨n, t, [], true⟩] :=
  Props.fieldProton_eq ⟨n, t, [], [], [], true, false⟩

theorem writesAs_property (key : Str × Str) (d : PropDesc) : WritesAs (property key d.name [d.tree]) (Pen.property key d) := by
  intro s L hk hr
  rw [property_run]
  unfold Pen.property
  cases hl : L.classes.lookup key with
  | none => simp only [runEvent, (hk.absent key hl).1]
  | some x =>
    cases x with
    | some src =>
      simp only [runEvent, hk.container key src hl]
      exact ⟨s.schemas, rfl, hk⟩
    | none =>
      obtain ⟨m, h1, h2⟩ := kept_prop hk key d hl
      simp only [h1]
      exact ⟨m, rfl, h2⟩

theorem writesAs_object {body : Wr} {a : Pen} (key : Str × Str) (kind : Option Str) (b : Blob) (v : Atom)
    (hb : b = match kind with | none => .comp [] | some src => .list src) (h : WritesAs body a) :
    WritesAs (guarded (seq (register key b) (seq (startSerializable key.2)
        (seq (data (Cursor.put v)) (data Cursor.enter)))) body stop) (Pen.object key kind v a) := by
  intro s L hk hs
  obtain ⟨m1, hm1, hk1⟩ := kept_class hk key kind b hb
  obtain ⟨⟨p, cu, r, u⟩, m0⟩ := s
  simp only at hs hm1
  subst hs
  have hstart : (seq (register key b) (seq (startSerializable key.2) (seq (data (Cursor.put v)) (data Cursor.enter))))
          ⟨⟨p, cu, [], u⟩, m0⟩
        = (.ok (), ⟨⟨[], none, [], ([.mk (.symbol key.2) []], v, []) :: (cu.toList ++ p, .described, []) :: u⟩, m1⟩) := by
    simp only [runEvent] at hm1
    simp only [seq, register, startSerializable, data]
    cases hl : m0.lookup key <;> rw [hl] at hm1 <;> cases hm1 <;> rfl
  have close : ∀ (ms : List Node),
      stop ((⟨[], none, [], ([.mk (.symbol key.2) []], v, []) :: (cu.toList ++ p, .described, []) :: u⟩ : Cursor).append ms)
        = (⟨p, cu, [], u⟩ : Cursor).append [describedNode key.2 v ms] := by
    intro ms
    unfold stop
    have h1 := Cursor.append_level ms
      ⟨[], none, [], ([.mk (.symbol key.2) []], v, []) :: (cu.toList ++ p, .described, []) :: u⟩ rfl
    have h2 := Cursor.append_up ms
      ⟨[], none, [], ([.mk (.symbol key.2) []], v, []) :: (cu.toList ++ p, .described, []) :: u⟩
    simp only [Cursor.exit, h2, h1]
    simp [Cursor.level, Cursor.append, describedNode]
  have h2 := h ⟨⟨[], none, [], ([.mk (.symbol key.2) []], v, []) :: (cu.toList ++ p, .described, []) :: u⟩, m1⟩ _ hk1 rfl
  unfold Pen.object guarded
  rw [hstart]
  simp only
  generalize a { L with classes := L.classes ++ [(key, kind)] } = x at h2 ⊢
  obtain ⟨r', ns, L'⟩ := x
  cases r' with
  | ub w => exact h2
  | ok u' =>
    obtain ⟨m, h2, h3⟩ := h2
    simp only [h2]
    exact ⟨m, by rw [close], h3⟩
  | throw e =>
    obtain ⟨m, h2, h3⟩ := h2
    simp only [h2]
    exact ⟨m, by rw [close], h3⟩

/-- Describing a property twice is describing it once. -/
theorem writesAs_twice (key : Str × Str) (d e : PropDesc) (hn : d.name = e.name) {q : Wr} {b : Pen} (hq : WritesAs q b) :
    WritesAs (seq (property key d.name [d.tree]) (seq (property key e.name [e.tree]) q)) ((Pen.property key d).then b) := by
  intro s L hk hr
  have h1 := writesAs_property key d s L hk hr
  unfold Pen.property at h1
  unfold Pen.then Pen.property
  cases hl : L.classes.lookup key with
  | none =>
    simp only [hl] at h1 ⊢
    unfold seq
    rcases hx : property key d.name [d.tree] s with ⟨r', s'⟩
    rw [hx] at h1
    simp only at h1
    subst h1
    rfl
  | some x =>
    cases x with
    | some src =>
      simp only [hl] at h1 ⊢
      obtain ⟨m, h1, h2⟩ := h1
      unfold seq
      simp only [h1]
      exact ⟨m, rfl, h2⟩
    | none =>
      simp only [hl] at h1 ⊢
      obtain ⟨m, h1, h2⟩ := h1
      have h3 := hq ⟨s.payload, m⟩ _ h2 hr
      have he : property key e.name [e.tree] ⟨s.payload, m⟩ = (.ok (), ⟨s.payload, m⟩) := by
        obtain ⟨fs, g1, g2, g3⟩ := h2.composite key hl
        have : fs.lookup e.name ≠ none := by
          rw [g3, descOf_append, descOf_one, hn]
          simp only [and_self, if_true]
          cases descOf L.props key e.name <;> simp
        unfold property
        simp only [g1]
        cases hf : fs.lookup e.name with
        | none => exact absurd hf this
        | some y => rfl
      have hs : seq (property key d.name [d.tree]) (seq (property key e.name [e.tree]) q) s = q ⟨s.payload, m⟩ := by
        unfold seq
        simp only [h1]
        rw [show s.payload.append [] = s.payload from rfl, he]
      rw [hs]
      simpa using h3

mutual

theorem writesAs_obj : (o : Obj) → WritesAs (object o) (penObj o)
  | .comp n f ms => by
    unfold object penObj
    exact writesAs_object (n, f) none (.comp []) .list rfl (writesAs_members (n, f) ms)
  | .list n f es => by
    unfold object penObj
    exact writesAs_object (n, f) (some "list".toList) (.list "list".toList) .list rfl (writesAs_elems es)
  | .map n f es => by
    unfold object penObj
    exact writesAs_object (n, f) (some "map".toList) (.list "map".toList) .map rfl (writesAs_entries es)

theorem writesAs_members (key : Str × Str) : (ms : List Member) → WritesAs (members key ms) (penMembers key ms)
  | [] => by unfold members penMembers; exact writesAs_nothing
  | m :: ms => by
    unfold members penMembers
    exact writesAs_then (writesAs_member key m) (writesAs_members key ms)

theorem writesAs_member (key : Str × Str) : (m : Member) → WritesAs (member key m) (penMember key m)
  | .prim n ptr v => by
    unfold member penMember
    rw [primDesc_eq, primNode_eq]
    exact writesAs_then (writesAs_print _) (writesAs_then (writesAs_property key (memberDesc (.prim n ptr v))) (writesAs_put _))
  | .nullPrim n t => by
    unfold member penMember
    rw [primDesc_eq]
    exact writesAs_then (writesAs_print _) (writesAs_then (writesAs_property key (memberDesc (.nullPrim n t))) (writesAs_put _))
  | .obj n t ptr o => by
    unfold member penMember
    have := writesAs_property key (memberDesc (.obj n t ptr o))
    by_cases h : (!ptr && o.isContainer) = true
    · simp only [memberDesc, if_pos h] at this ⊢
      rw [restrictedDesc_eq]
      exact writesAs_then this (writesAs_obj o)
    · simp only [memberDesc, if_neg h] at this ⊢
      rw [compositeDesc_eq]
      exact writesAs_then this (writesAs_obj o)
  | .nullObj n t => by
    unfold member penMember
    rw [compositeDesc_eq, nullDesc_eq]
    exact writesAs_twice key ⟨n, t, [], false⟩ ⟨n, t, [], true⟩ rfl (writesAs_put _)

theorem writesAs_elems : (es : List Elem) → WritesAs (elems es) (penElems es)
  | [] => by unfold elems penElems; exact writesAs_nothing
  | e :: es => by
    unfold elems penElems
    exact writesAs_then (writesAs_elem e) (writesAs_elems es)

theorem writesAs_elem : (e : Elem) → WritesAs (elem e) (penElem e)
  | .prim v => by unfold elem penElem; rw [primNode_eq]; exact writesAs_put _
  | .nullPrim t => by unfold elem penElem; exact writesAs_then (writesAs_print _) (writesAs_put _)
  | .obj o => by unfold elem penElem; exact writesAs_obj o

theorem writesAs_entries : (es : List Entry) → WritesAs (entries es) (penEntries es)
  | [] => by unfold entries penEntries; exact writesAs_nothing
  | .mk k v :: es => by
    unfold entries penEntries entry
    exact writesAs_then (writesAs_then (writesAs_elem k) (writesAs_elem v)) (writesAs_entries es)

end

end Corda
