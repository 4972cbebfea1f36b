import Verif.Lemmas.Meaning
import Verif.Spec.Session

/-
What processing any schema does to a factory.
-/

namespace Corda
open Spec FProg

/-! ### Maps -/

theorem lookup_cons_if {β : Type} (k k' : Str) (v : β) (m : List (Str × β)) :
    ((k, v) :: m).lookup k' = if k' = k then some v else m.lookup k' := by
  by_cases h : k' = k
  · subst h; simp
  · have : (k' == k) = false := by simpa using h
    simp [List.lookup_cons, this, h]

theorem assign_mem {m : List (Str × Option Nat)} {k : Str} {v : Option Nat} {e : Str × Option Nat}
    (h : e ∈ Factory.assign m k v) : e = (k, v) ∨ e ∈ m := by
  induction m with
  | nil => simpa [Factory.assign] using h
  | cons x m ih =>
    obtain ⟨a, b⟩ := x
    rw [Factory.assign] at h
    split at h
    · rcases List.mem_cons.mp h with h | h
      · exact .inl h
      · exact .inr (List.mem_cons_of_mem _ h)
    · rcases List.mem_cons.mp h with h | h
      · exact .inr (h ▸ List.mem_cons_self)
      · exact (ih h).imp id (List.mem_cons_of_mem _)

theorem assign_keys {m : List (Str × Option Nat)} {k : Str} {v : Option Nat} {a : Str} :
    a ∈ (Factory.assign m k v).map Prod.fst ↔ a = k ∨ a ∈ m.map Prod.fst := by
  induction m with
  | nil => simp [Factory.assign]
  | cons x m ih =>
    obtain ⟨b, c⟩ := x
    rw [Factory.assign]
    split
    · rename_i h
      subst h
      simp only [List.map_cons, List.mem_cons]
      constructor
      · rintro (h | h)
        · exact .inl h
        · exact .inr (.inr h)
      · rintro (h | h | h)
        · exact .inl h
        · exact .inl h
        · exact .inr h
    · simp only [List.map_cons, List.mem_cons, ih]
      constructor
      · rintro (h | h | h)
        · exact .inr (.inl h)
        · exact .inl h
        · exact .inr (.inr h)
      · rintro (h | h | h)
        · exact .inr (.inl h)
        · exact .inl h
        · exact .inr (.inr h)

theorem assign_nodup {m : List (Str × Option Nat)} {k : Str} {v : Option Nat} (h : (m.map Prod.fst).Nodup) :
    ((Factory.assign m k v).map Prod.fst).Nodup := by
  induction m with
  | nil => simp [Factory.assign]
  | cons x m ih =>
    obtain ⟨a, b⟩ := x
    simp only [List.map_cons, List.nodup_cons] at h
    rw [Factory.assign]
    split
    · rename_i e
      subst e
      simp only [List.map_cons, List.nodup_cons]
      exact h
    · rename_i e
      simp only [List.map_cons, List.nodup_cons, assign_keys]
      exact ⟨fun h' => h'.elim (fun h' => e h'.symm) h.1, ih h.2⟩

theorem lookup_nodup_mem {m : List (Str × Option Nat)} (hn : (m.map Prod.fst).Nodup) {k : Str} {v : Option Nat}
    (h : (k, v) ∈ m) : m.lookup k = some v := by
  induction m with
  | nil => cases h
  | cons x m ih =>
    obtain ⟨a, b⟩ := x
    simp only [List.map_cons, List.nodup_cons] at hn
    rw [lookup_cons_if]
    rcases List.mem_cons.mp h with h | h
    · cases h; simp
    · have : k ≠ a := by
        intro e
        exact hn.1 (List.mem_map.mpr ⟨(k, v), h, e⟩)
      rw [if_neg this]
      exact ih hn.2 h

/-! ### A factory and a table -/

/-- Nothing owns the object any more. -/
structure Gone (F : Factory) (j : Nat) : Prop where
  made : j < F.objs.length
  types : ∀ e ∈ F.byType, e.2 ≠ some j
  descs : ∀ e ∈ F.byDesc, e.2 ≠ some j

/-- The object is the reader registered under the name, or lost. -/
def Refers (F : Factory) (ref : Option Str) (j : Nat) : Prop :=
  match ref with
  | some t => ReaderFor F t j
  | none => Gone F j

/-- The object reads values that way. -/
def Fits (F : Factory) (w : How) (o : Ser) : Prop :=
  match w with
  | .key => ∃ n, o.kind = .custom n
  | .prim p => o.kind = .prim p
  | .type (.comp c) => o.kind = .composite ∧ o.subs.length = c.fields.length ∧
      ∀ f j, (f, j) ∈ c.fields.zip o.subs → Refers F (fieldRef c f) j
  | .type (.restr r) =>
    match r.kind with
    | .list l => o.kind = .list ∧ ∃ j, o.subs = [j] ∧ Refers F (elementRef r l) j
    | .array l => o.kind = .array ∧ ∃ j, o.subs = [j] ∧ Refers F (elementRef r l) j
    | .map k v => o.kind = .map ∧ ∃ j j', o.subs = [j, j'] ∧ Refers F (elementRef r k) j ∧ Refers F (elementRef r v) j'
    | .enum cs => o.kind = .enum cs

/-- The factory has the readers that the memory says. -/
structure Tabled (F : Factory) (M : Memory) : Prop where
  nodup : (F.byType.map Prod.fst).Nodup
  desc : ∀ e ∈ F.byDesc, ∀ i, e.2 = some i → i < F.objs.length
  miss : ∀ k, M.table.lookup k = none → F.byType.lookup k = if k ∈ M.vain then some none else none
  hit : ∀ k w, M.table.lookup k = some w → ∃ i o, ReaderFor F k i ∧ F.objs[i]? = some o ∧ o.type = k ∧ Fits F w o
  named : ∀ d, match M.descs.lookup d with
    | some k => ∃ i, ReaderFor F k i ∧ F.byDesc.lookup d = some (some i)
    | none => F.byDesc.lookup d = none

theorem Tabled.absent {F : Factory} {M : Memory} (h : Tabled F M) {k : Str} (hk : M.table.lookup k = none) (i : Nat) :
    ¬ ReaderFor F k i := by
  intro hr
  have := (h.miss k hk).symm.trans hr
  split at this <;> cases this

/-- Nothing known is changed, nothing lost is found. -/
structure Onward (F F' : Factory) : Prop where
  objs : ∀ (i : Nat) (o : Ser), F.objs[i]? = some o → F'.objs[i]? = some o
  types : ∀ k i, ReaderFor F k i → ReaderFor F' k i
  gone : ∀ j, Gone F j → Gone F' j
  desc : F'.byDesc = F.byDesc

theorem Onward.refl (F : Factory) : Onward F F := ⟨fun _ _ h => h, fun _ _ h => h, fun _ h => h, rfl⟩
theorem Onward.trans {A B C : Factory} (h : Onward A B) (h' : Onward B C) : Onward A C :=
  ⟨fun i o x => h'.objs i o (h.objs i o x), fun k i x => h'.types k i (h.types k i x), fun j x => h'.gone j (h.gone j x),
    h'.desc.trans h.desc⟩

theorem Onward.length {F F' : Factory} (h : Onward F F') : F.objs.length ≤ F'.objs.length := by
  rcases Nat.eq_zero_or_pos F.objs.length with h0 | h0
  · omega
  · have hlt : F.objs.length - 1 < F.objs.length := by omega
    have := (List.getElem?_eq_some_iff.mp (h.objs _ _ (List.getElem?_eq_getElem hlt))).1
    omega

/-- The same whatever the descriptors are assigned to. -/
structure Further (F F' : Factory) : Prop where
  objs : ∀ (i : Nat) (o : Ser), F.objs[i]? = some o → F'.objs[i]? = some o
  types : ∀ k i, ReaderFor F k i → ReaderFor F' k i
  gone : ∀ j, Gone F j → Gone F' j

theorem Onward.further {F F' : Factory} (h : Onward F F') : Further F F' := ⟨h.objs, h.types, h.gone⟩

theorem Refers.further {F F' : Factory} (h : Further F F') {ref : Option Str} {j : Nat} (hr : Refers F ref j) :
    Refers F' ref j := by
  cases ref with
  | none => exact h.gone _ hr
  | some t => exact h.types _ _ hr

theorem Fits.further {F F' : Factory} (h : Further F F') {w : How} {o : Ser} (hf : Fits F w o) : Fits F' w o := by
  cases w with
  | key => exact hf
  | prim p => exact hf
  | type t =>
    cases t with
    | comp c =>
      obtain ⟨h1, h2, h3⟩ := hf
      exact ⟨h1, h2, fun f j hm => (h3 f j hm).further h⟩
    | restr r =>
      simp only [Fits] at hf ⊢
      cases hk : r.kind with
      | list l =>
        simp only [hk] at hf ⊢
        obtain ⟨h1, j, h2, h3⟩ := hf
        exact ⟨h1, j, h2, h3.further h⟩
      | array l =>
        simp only [hk] at hf ⊢
        obtain ⟨h1, j, h2, h3⟩ := hf
        exact ⟨h1, j, h2, h3.further h⟩
      | map k v =>
        simp only [hk] at hf ⊢
        obtain ⟨h1, j, j', h2, h3, h4⟩ := hf
        exact ⟨h1, j, j', h2, h3.further h, h4.further h⟩
      | enum cs => simpa only [hk] using hf

theorem Tabled.reader {F : Factory} {M : Memory} (h : Tabled F M) {k : Str} {i : Nat} (hi : ReaderFor F k i) :
    ∃ w o, M.table.lookup k = some w ∧ F.objs[i]? = some o ∧ o.type = k ∧ Fits F w o := by
  cases hT : M.table.lookup k with
  | none => exact absurd hi (h.absent hT i)
  | some w =>
    obtain ⟨i', o, h1, h2, h3, h4⟩ := h.hit k w hT
    have : i = i' := by have := hi.symm.trans h1; simpa using this
    subst this
    exact ⟨w, o, rfl, h2, h3, h4⟩

/-- Every entry is one that counts. -/
theorem Tabled.entry {F : Factory} {M : Memory} (h : Tabled F M) {e : Str × Option Nat} (he : e ∈ F.byType) {i : Nat}
    (hi : e.2 = some i) : ReaderFor F e.1 i := by
  obtain ⟨k, v⟩ := e
  simp only at hi
  subst hi
  exact lookup_nodup_mem h.nodup he

theorem Tabled.bound {F : Factory} {M : Memory} (h : Tabled F M) {k : Str} {i : Nat} (hi : ReaderFor F k i) :
    i < F.objs.length := by
  obtain ⟨w, o, -, h2, -⟩ := h.reader hi
  exact (List.getElem?_eq_some_iff.mp h2).1

/-- Descriptors stay what they are. -/
theorem Tabled.named_onward {F F' : Factory} {M : Memory} (h : Tabled F M) (ho : Onward F F') (d : Str) :
    match M.descs.lookup d with
    | some k => ∃ i, ReaderFor F' k i ∧ F'.byDesc.lookup d = some (some i)
    | none => F'.byDesc.lookup d = none := by
  have := h.named d
  cases hd : M.descs.lookup d with
  | none => rw [hd] at this; rw [ho.desc]; exact this
  | some k =>
    rw [hd] at this
    obtain ⟨i, h1, h2⟩ := this
    exact ⟨i, ho.types _ _ h1, by rw [ho.desc]; exact h2⟩

/-- Making an object. -/
theorem Tabled.make {F : Factory} {M : Memory} (h : Tabled F M) (s : Ser) :
    Tabled { F with objs := F.objs ++ [s] } M ∧ Onward F { F with objs := F.objs ++ [s] }
      ∧ Gone { F with objs := F.objs ++ [s] } F.objs.length := by
  have ho : Onward F { F with objs := F.objs ++ [s] } :=
    ⟨fun i o x => getElem?_snoc x, fun k i x => x, fun j hj => ⟨by have := hj.made; simp; omega, hj.types, hj.descs⟩, rfl⟩
  refine ⟨⟨h.nodup, fun e he i hi => ?_, h.miss, fun k w hw => ?_, h.named_onward ho⟩, ho,
    ⟨by simp, fun e he hi => ?_, fun e he hi => ?_⟩⟩
  · have := h.desc e he i hi
    simp; omega
  · obtain ⟨i, o, h1, h2, h3, h4⟩ := h.hit k w hw
    exact ⟨i, o, h1, ho.objs _ _ h2, h3, h4.further ho.further⟩
  · have := h.bound (h.entry he hi)
    omega
  · have := h.desc e he _ hi
    omega

/-- Entering an object under a name. -/
theorem Tabled.enter {F : Factory} {M : Memory} (h : Tabled F M) {k : Str} {i : Nat} {o : Ser} {w : How}
    (ho : F.objs[i]? = some o) (ht : o.type = k)
    (hw : Fits { F with byType := Factory.assign F.byType k (some i) } w o)
    (hf : ∀ k' w' i' o', k' ≠ k → M.table.lookup k' = some w' → ReaderFor F k' i' → F.objs[i']? = some o' → Fits F w' o' →
      Fits { F with byType := Factory.assign F.byType k (some i) } w' o')
    (hn : ∀ d, M.descs.lookup d ≠ some k) :
    Tabled { F with byType := Factory.assign F.byType k (some i) } { M with table := (k, w) :: M.table } := by
  refine ⟨assign_nodup h.nodup, h.desc, fun k' hk' => ?_, fun k' w' hk' => ?_, fun d => ?_⟩
  · simp only [lookup_cons_if] at hk'
    split at hk'
    · cases hk'
    · rename_i hne
      simp only [lookup_assign, if_neg hne]
      exact h.miss k' hk'
  · simp only [lookup_cons_if] at hk'
    split at hk'
    · rename_i he
      subst he
      cases hk'
      exact ⟨i, o, by simp [ReaderFor, lookup_assign], ho, ht, hw⟩
    · rename_i hne
      obtain ⟨i', o', h1, h2, h3, h4⟩ := h.hit k' w' hk'
      exact ⟨i', o', by simp only [ReaderFor, lookup_assign, if_neg hne]; exact h1, h2, h3, hf k' w' i' o' hne hk' h1 h2 h4⟩
  · have := h.named d
    have hd := hn d
    simp only
    cases hl : M.descs.lookup d with
    | none => rw [hl] at this; exact this
    | some k' =>
      rw [hl] at this
      obtain ⟨j, h1, h2⟩ := this
      have hne : k' ≠ k := fun e => hd (by rw [hl, e])
      exact ⟨j, by simp only [ReaderFor, lookup_assign, if_neg hne]; exact h1, h2⟩

/-- A name without reader belongs to no descriptor. -/
theorem Tabled.undescribed {F : Factory} {M : Memory} (h : Tabled F M) {k : Str} (hk : M.table.lookup k = none) (d : Str) :
    M.descs.lookup d ≠ some k := by
  intro hd
  have := h.named d
  rw [hd] at this
  obtain ⟨i, h1, -⟩ := this
  exact h.absent hk i h1

/-- Entering under a new name a fresh object changes nothing known. -/
theorem Onward.enter {F F2 : Factory} {M : Memory} (h : Tabled F M) (hon : Onward F F2) {k : Str} {i : Nat}
    (hk : M.table.lookup k = none) (hi : F.objs.length ≤ i) :
    Onward F { F2 with byType := Factory.assign F2.byType k (some i) } := by
  refine ⟨hon.objs, fun k' j hj => ?_, fun j hj => ?_, hon.desc⟩
  · have hne : k' ≠ k := by
      rintro rfl
      exact h.absent hk j hj
    simp only [ReaderFor, lookup_assign, if_neg hne]
    exact hon.types _ _ hj
  · have h2 := hon.gone j hj
    refine ⟨h2.made, fun e he hx => ?_, h2.descs⟩
    rcases assign_mem he with rfl | he
    · simp only [Option.some.injEq] at hx
      have := hj.made
      omega
    · exact h2.types e he hx

/-! ### Programs of the factory with a known outcome -/

/-- The outcome is the same as that of a step, and if it is not undefined, the factory has the readers the memory says. -/
def Runs {α : Type} (p : FProg α) (F : Factory) (r : Res Unit × Memory) (Q : α → Factory → Memory → Prop) : Prop :=
  match r with
  | (.ok _, M) => ∃ a F', p F = (.ok a, F') ∧ Q a F' M
  | (.throw m, M) => ∃ F', p F = (.throw m, F') ∧ Tabled F' M
  | (.ub m, _) => ∃ F', p F = (.ub m, F')

theorem Runs.bind {α β : Type} {p : FProg α} {F : Factory} {M : Memory} {a b : Step} {Q : α → Factory → Memory → Prop}
    {f : α → FProg β} {R : β → Factory → Memory → Prop} (h : Runs p F (a M) Q)
    (h' : ∀ x F' M', Q x F' M' → Runs (f x) F' (b M') R) : Runs (p >>= f) F ((a.then b) M) R := by
  unfold Step.then
  rcases hr : a M with ⟨r, M'⟩
  rw [hr] at h
  cases r with
  | ok u =>
    obtain ⟨x, F', h1, h2⟩ := h
    have := h' x F' M' h2
    simp only
    unfold Runs at this ⊢
    rw [FProg.bind_def, h1]
    exact this
  | throw m =>
    obtain ⟨F', h1, h2⟩ := h
    exact ⟨F', by rw [FProg.bind_def, h1], h2⟩
  | ub m =>
    obtain ⟨F', h1⟩ := h
    exact ⟨F', by rw [FProg.bind_def, h1]⟩

theorem Runs.imp {α : Type} {p : FProg α} {F : Factory} {r : Res Unit × Memory} {Q R : α → Factory → Memory → Prop}
    (h : Runs p F r Q) (hq : ∀ a F' M, Q a F' M → R a F' M) : Runs p F r R := by
  rcases r with ⟨r, M⟩
  cases r with
  | ok u =>
    obtain ⟨a, F', h1, h2⟩ := h
    exact ⟨a, F', h1, hq _ _ _ h2⟩
  | throw m => exact h
  | ub m => exact h

theorem runs_pure {α : Type} {a : α} {F : Factory} {M : Memory} {Q : α → Factory → Memory → Prop} (h : Q a F M) :
    Runs (pure a : FProg α) F (.ok (), M) Q := ⟨a, F, rfl, h⟩

/-- The same program up to what it returns. -/
theorem Runs.same {α β : Type} {p : FProg α} {q : FProg β} {F : Factory} {r : Res Unit × Memory}
    {Q : α → Factory → Memory → Prop} {R : β → Factory → Memory → Prop} (h : Runs p F r Q) (g : α → β)
    (he : q F = (g <$> (p F).1, (p F).2)) (hq : ∀ a F' M, Q a F' M → R (g a) F' M) : Runs q F r R := by
  rcases r with ⟨r, M⟩
  cases r with
  | ok u =>
    obtain ⟨a, F', h1, h2⟩ := h
    exact ⟨g a, F', by rw [he, h1]; rfl, hq _ _ _ h2⟩
  | throw m =>
    obtain ⟨F', h1, h2⟩ := h
    exact ⟨F', by rw [he, h1]; rfl, h2⟩
  | ub m =>
    obtain ⟨F', h1⟩ := h
    exact ⟨F', by rw [he, h1]; rfl⟩

/-- The state while the readers needed for a type are looked for. -/
structure Mid (F0 : Factory) (M0 : Memory) (F : Factory) (M : Memory) : Prop where
  has : Tabled F M
  onward : Onward F0 F
  new : ∀ k w, M.table.lookup k = some w → M0.table.lookup k = some w ∨ ∃ p, w = .prim p
  fresh : ∀ k j, M0.table.lookup k = none → ReaderFor F k j → F0.objs.length ≤ j
  descs : M.descs = M0.descs

theorem Mid.refl {F : Factory} {M : Memory} (h : Tabled F M) : Mid F M F M :=
  ⟨h, Onward.refl F, fun _ _ hw => .inl hw, fun k j hk hj => absurd hj (h.absent hk j), rfl⟩

theorem makeProperty_throw {k : Str} (h : k ∉ readable) : makePropertyReader k = .throw "THIS IS BAD" := by
  simp only [readable, List.map_cons, List.map_nil, List.mem_cons, List.not_mem_nil, or_false, not_or] at h
  obtain ⟨h1, h2, h3, h4, h5, h6, h7⟩ := h
  unfold makePropertyReader
  rw [if_neg h1, if_neg h2, if_neg h3, if_neg h4, if_neg h5, if_neg h6, if_neg h7]

/-- A name that was asked for in vain cannot be entered. -/
theorem vain_ub {F : Factory} {M : Memory} (h : Tabled F M) {k : Str} (hk : M.table.lookup k = none) (hv : k ∈ M.vain)
    (p : FProg Nat) : computeIfAbsent k p F = (.ub "assert", F) := by
  have := h.miss k hk
  rw [if_pos hv] at this
  unfold computeIfAbsent
  rw [this]

theorem Tabled.unasked {F : Factory} {M : Memory} (h : Tabled F M) {k : Str} (hk : M.table.lookup k = none) (hv : k ∉ M.vain) :
    F.byType.lookup k = none := by
  have := h.miss k hk
  rw [if_neg hv] at this
  exact this

/-- A primitive type. -/
theorem runs_prim {F0 F : Factory} {M0 M : Memory} (h : Mid F0 M0 F M) (k : Str) :
    Runs (computeIfAbsent k (makeProperty k)) F (usePrimitive k M) (fun i F' M' =>
      Mid F0 M0 F' M' ∧ Onward F F' ∧ ReaderFor F' k i) := by
  unfold usePrimitive
  cases hT : M.table.lookup k with
  | some w =>
    obtain ⟨i, o, h1, -⟩ := h.has.hit k w hT
    refine ⟨i, F, ?_, h, Onward.refl F, h1⟩
    unfold computeIfAbsent
    have : F.byType.lookup k = some (some i) := h1
    rw [this]
  | none =>
    simp only
    by_cases hv : k ∈ M.vain
    · rw [if_pos hv]
      exact ⟨F, vain_ub h.has hT hv _⟩
    rw [if_neg hv]
    have hn := h.has.unasked hT hv
    cases hp : primNamed k with
    | none =>
      refine ⟨F, ?_, h.has⟩
      unfold computeIfAbsent
      rw [hn]
      simp only [makeProperty, FProg.bind_def, FProg.lift, makeProperty_throw ((primNamed_eq k).2.mp hp)]
    | some p =>
      have hm := ((primNamed_eq k).1 p).mp hp
      have hpn : p.typeName = k := by
        rcases makeProperty_cases k with ⟨-, p', hp', hn'⟩ | ⟨-, m, hm'⟩
        · rw [hm] at hp'; cases hp'; exact hn'
        · rw [hm] at hm'; cases hm'
      obtain ⟨h1, h2, h3⟩ := h.has.make ⟨.prim p, p.typeName, []⟩
      have hob : ({ F with objs := F.objs ++ [⟨.prim p, p.typeName, []⟩] } : Factory).objs[F.objs.length]? =
        some ⟨.prim p, p.typeName, []⟩ := by simp
      have hon := Onward.enter h.has h2 hT (Nat.le_refl _)
      refine ⟨F.objs.length, ⟨F.objs ++ [⟨.prim p, p.typeName, []⟩],
        Factory.assign F.byType k (some F.objs.length), F.byDesc⟩, ?_, ⟨?_, h.onward.trans hon, ?_, ?_, h.descs⟩, hon, ?_⟩
      · unfold computeIfAbsent
        rw [hn]
        simp only [makeProperty, FProg.bind_def, FProg.lift, hm, FProg.make, FProg.setType]
        simp [hpn, FProg.pure_def]
      · refine h1.enter hob hpn rfl (fun k' w' i' o' hne hw' hi' ho' _ => ?_) (h.has.undescribed hT)
        obtain ⟨w2, o2, g1, g2, g3, g4⟩ := h.has.reader (k := k') (i := i') hi'
        rw [hw'] at g1
        cases g1
        have := (h2.objs _ _ g2).symm.trans ho'
        cases this
        exact g4.further hon.further
      · intro k' w' hw'
        simp only [lookup_cons_if] at hw'
        split at hw'
        · cases hw'; exact .inr ⟨p, rfl⟩
        · exact h.new k' w' hw'
      · intro k' j hk' hj
        simp only [ReaderFor, lookup_assign] at hj
        split at hj
        · simp only [Option.some.injEq] at hj
          have := h.onward.length
          omega
        · exact h.fresh k' j hk' hj
      · simp [ReaderFor, lookup_assign]

/-- Any other type. -/
theorem runs_typeAt {F : Factory} {M : Memory} (h : Tabled F M) (k : Str) :
    (∃ i w, M.table.lookup k = some w ∧ typeAt k F = (.ok (some i), F) ∧ ReaderFor F k i) ∨
      (M.table.lookup k = none ∧ ∃ F', typeAt k F = (.ok none, F') ∧ Tabled F' { M with vain := k :: M.vain }) := by
  cases hT : M.table.lookup k with
  | none =>
    right
    have hm := h.miss k hT
    by_cases hv : k ∈ M.vain
    · rw [if_pos hv] at hm
      refine ⟨rfl, F, by simp [typeAt, Factory.subscript, hm], h.nodup, h.desc, fun k' hk' => ?_, h.hit, h.named⟩
      rw [h.miss k' hk']
      have : k' ∈ k :: M.vain ↔ k' ∈ M.vain := by
        rw [List.mem_cons]
        exact ⟨fun e => e.elim (fun e => e ▸ hv) id, .inr⟩
      simp only [this]
    · rw [if_neg hv] at hm
      have hfu : Onward F ⟨F.objs, Factory.assign F.byType k none, F.byDesc⟩ := by
        refine ⟨fun _ _ x => x, fun k' i hi => ?_, fun j hj => ⟨hj.made, fun e he hx => ?_, hj.descs⟩, rfl⟩
        · have hne : k' ≠ k := by
            rintro rfl
            exact h.absent hT i hi
          simp only [ReaderFor, lookup_assign, if_neg hne]
          exact hi
        · rcases assign_mem he with rfl | he
          · cases hx
          · exact hj.types e he hx
      refine ⟨rfl, ⟨F.objs, Factory.assign F.byType k none, F.byDesc⟩, by simp [typeAt, Factory.subscript, hm],
        assign_nodup h.nodup, h.desc, fun k' hk' => ?_, fun k' w' hk' => ?_, h.named_onward hfu⟩
      · simp only [lookup_assign, List.mem_cons]
        by_cases e : k' = k
        · simp [e]
        · rw [if_neg e, h.miss k' hk']
          simp only [e, false_or]
      · obtain ⟨i, o, h1, h2, h3, h4⟩ := h.hit k' w' hk'
        exact ⟨i, o, hfu.types _ _ h1, h2, h3, h4.further hfu.further⟩
  | some w =>
    left
    obtain ⟨i, o, h1, -⟩ := h.hit k w hT
    have : F.byType.lookup k = some (some i) := h1
    exact ⟨i, w, rfl, by simp [typeAt, Factory.subscript, this], h1⟩

theorem primitiveNames_eq (k : Str) : typeIsPrimitive k = true ↔ k ∈ primitiveNames := by
  have e : primitiveNames = ["bool".toList, "int".toList, "long".toList, "double".toList, "boolean".toList,
    "string".toList, "float".toList, "binary".toList] := rfl
  rw [e]
  unfold typeIsPrimitive
  simp only [Bool.or_eq_true, beq_iff_eq, List.mem_cons, List.not_mem_nil, or_false]
  constructor
  · rintro (((((((h | h) | h) | h) | h) | h) | h) | h) <;> simp [h]
  · rintro (h | h | h | h | h | h | h | h) <;> simp [h]

/-- The reader for elements. -/
theorem runs_fetch {F0 F : Factory} {M0 M : Memory} (h : Mid F0 M0 F M) (k : Str) :
    Runs (fetchReader k) F (useElement k M) (fun i F' M' => Mid F0 M0 F' M' ∧ Onward F F' ∧ ReaderFor F' k i) := by
  unfold fetchReader useElement
  by_cases hp : k ∈ primitiveNames
  · rw [if_pos hp]
    simp only [(primitiveNames_eq k).mpr hp, if_true]
    refine (runs_prim h k).same id ?_ fun _ _ _ x => x
    rw [FProg.bind_def, FProg.bind_def]
    rcases computeIfAbsent k (makeProperty k) F with ⟨r, F'⟩
    cases r <;> rfl
  · rw [if_neg hp]
    have hp' : typeIsPrimitive k = false := by
      cases hb : typeIsPrimitive k with
      | false => rfl
      | true => exact absurd ((primitiveNames_eq k).mp hb) hp
    simp only [hp', Bool.false_eq_true, if_false]
    unfold useKnown
    rcases runs_typeAt h.has k with ⟨i, w, h1, h2, h3⟩ | ⟨h1, F', h2, h3⟩
    · rw [h1]
      exact ⟨i, F, by rw [FProg.bind_def, h2]; rfl, h, Onward.refl F, h3⟩
    · rw [h1]
      exact ⟨F', by rw [FProg.bind_def, h2]; rfl, h3⟩

/-- Whether a field of the type of its own class is read with the class. -/
def Itself (self : Str) (f : Field) (t : Str) : Prop := t = self ∧ ¬ (f.kind = .primitive ∨ f.kind = .custom)

theorem use_other {self : Str} {M : Memory} {f : Field} {t : Str} (ht : fieldTypeName f = some t)
    (hp : f.kind ≠ .primitive) (hc : f.kind ≠ .custom) :
    useField self f M = if t = self then (.ok (), M) else useKnown t "Can't find" M := by
  unfold useField
  rw [ht]
  cases hk : f.kind <;> simp_all

/-- One field and what follows if there is a reader for it. -/
theorem runs_field {F0 F : Factory} {M0 M : Memory} (h : Mid F0 M0 F M) (self : Str) (rtn : Nat) (f : Field) :
    Runs (do
        match ← fieldReader self rtn f with
        | none => FProg.throw "Can't find"
        | some i => pure i : FProg Nat) F (useField self f M) (fun j F' M' => Mid F0 M0 F' M' ∧ Onward F F' ∧
      ∃ t, fieldTypeName f = some t ∧ (Itself self f t ∧ j = rtn ∨ ¬ Itself self f t ∧ ReaderFor F' t j)) := by
  cases ht : fieldTypeName f with
  | none =>
    unfold useField
    rw [ht]
    refine ⟨F, ?_⟩
    unfold fieldTypeName at ht
    unfold fieldReader
    cases hk : f.kind <;> simp_all [Field.AMQPType, FProg.bind_def, FProg.lift, Field.resolvedType, front]
  | some t =>
    have hrt := resolved_of_named.mp ht
    by_cases hp : f.kind = .primitive
    · have hty : f.type = t := by simpa [fieldTypeName, hp] using ht
      have hI : ¬ Itself self f t := fun h => h.2 (.inl hp)
      have hA : f.AMQPType = .primitive_t := by simp [Field.AMQPType, hp]
      have hE : fieldReader self rtn f F = (do
          let i ← computeIfAbsent t (makeProperty t)
          pure (some i) : FProg (Option Nat)) F := by
        unfold fieldReader
        simp only [hA, hty]
        rw [FProg.bind_def, FProg.lift, hrt]
      have hU : useField self f M = usePrimitive t M := by
        unfold useField
        simp only [ht, hp]
      rw [hU]
      refine (runs_prim h t).same id ?_ fun j F' M' x => ⟨x.1, x.2.1, t, rfl, .inr ⟨hI, x.2.2⟩⟩
      rw [FProg.bind_def, hE, FProg.bind_def]
      rcases computeIfAbsent t (makeProperty t) F with ⟨r, F'⟩
      cases r <;> rfl
    · have known : ¬ Itself self f t → fieldReader self rtn f F = typeAt t F →
          Runs (do
            match ← fieldReader self rtn f with
            | none => FProg.throw "Can't find"
            | some i => pure i : FProg Nat) F (useKnown t "Can't find" M) (fun j F' M' => Mid F0 M0 F' M' ∧ Onward F F' ∧
          ∃ t', some t = some t' ∧ (Itself self f t' ∧ j = rtn ∨ ¬ Itself self f t' ∧ ReaderFor F' t' j)) := by
        intro hI hE
        unfold useKnown
        rcases runs_typeAt h.has t with ⟨i, w, h1, h2, h3⟩ | ⟨h1, F', h2, h3⟩
        · rw [h1]
          exact ⟨i, F, by rw [FProg.bind_def, hE, h2]; rfl, h, Onward.refl F, t, rfl, .inr ⟨hI, h3⟩⟩
        · rw [h1]
          exact ⟨F', by rw [FProg.bind_def, hE, h2]; rfl, h3⟩
      by_cases hc : f.kind = .custom
      · have hE : fieldReader self rtn f F = typeAt t F := by
          unfold fieldReader
          have hA : f.AMQPType = .custom_t := by simp [Field.AMQPType, hc]
          simp only [hA]
          rw [FProg.bind_def, FProg.lift, hrt]
        have hI : ¬ Itself self f t := fun h => h.2 (.inr hc)
        have hU : useField self f M = useKnown t "Can't find" M := by
          unfold useField
          simp only [ht, hc]
        rw [hU]
        exact known hI hE
      · have hE : fieldReader self rtn f F = (if t = self then pure (some rtn) else typeAt t : FProg (Option Nat)) F := by
          unfold fieldReader
          cases hk : f.kind <;> simp_all [Field.AMQPType, FProg.bind_def, FProg.lift]
        rw [use_other ht hp hc]
        by_cases hts : t = self
        · rw [if_pos hts] at hE ⊢
          exact ⟨rtn, F, by rw [FProg.bind_def, hE]; rfl, h, Onward.refl F, t, rfl, .inl ⟨⟨hts, fun x => x.elim hp hc⟩, rfl⟩⟩
        · rw [if_neg hts] at hE ⊢
          exact known (fun h => hts h.1) hE

/-- All fields. -/
theorem runs_fields {F0 : Factory} {M0 : Memory} (self : Str) (rtn : Nat) (fs : List Field) {F : Factory} {M : Memory}
    (h : Mid F0 M0 F M) :
    Runs (fieldReaders self rtn fs) F (useFields self fs M) (fun js F' M' => Mid F0 M0 F' M' ∧ Onward F F' ∧
      js.length = fs.length ∧ ∀ f j, (f, j) ∈ fs.zip js → ∃ t, fieldTypeName f = some t ∧
        (Itself self f t ∧ j = rtn ∨ ¬ Itself self f t ∧ ReaderFor F' t j)) := by
  induction fs generalizing F M with
  | nil => exact runs_pure ⟨h, Onward.refl F, rfl, by simp⟩
  | cons f fs ih =>
    rw [useFields]
    have e : fieldReaders self rtn (f :: fs) = ((do
        match ← fieldReader self rtn f with
        | none => FProg.throw "Can't find"
        | some i => pure i : FProg Nat) >>= fun i => do
          let is ← fieldReaders self rtn fs
          pure (i :: is)) := by
      funext F
      rw [fieldReaders]
      simp only [FProg.bind_def]
      rcases fieldReader self rtn f F with ⟨r, F'⟩
      cases r with
      | ok o => cases o <;> rfl
      | throw m => rfl
      | ub m => rfl
    rw [e]
    refine (runs_field h self rtn f).bind fun j F' M' ⟨h1, h2, t, h3, h4⟩ => ?_
    refine (ih h1).same (fun js => j :: js) ?_ fun js F2 M2 ⟨g2, g3, g4, g5⟩ => ⟨g2, h2.trans g3, by simp [g4], ?_⟩
    · rw [FProg.bind_def]
      rcases fieldReaders self rtn fs F' with ⟨r, F'⟩
      cases r <;> rfl
    · intro f' j' hm
      rw [List.zip_cons_cons, List.mem_cons] at hm
      rcases hm with hm | hm
      · cases hm
        exact ⟨t, h3, h4.imp id (fun x => ⟨x.1, g3.types _ _ x.2⟩)⟩
      · exact g5 f' j' hm

/-- The reader whose place is taken is lost. -/
theorem gone_after {F : Factory} {M : Memory} (h : Tabled F M) {k : Str} {i j : Nat} (hj : ReaderFor F k j)
    (hi : ∀ k', ¬ ReaderFor F k' i) (hd : ∀ e ∈ F.byDesc, e.2 ≠ some j) :
    Gone { F with byType := Factory.assign F.byType k (some i) } j := by
  refine ⟨h.bound hj, fun e he hx => ?_, hd⟩
  have hr : ReaderFor { F with byType := Factory.assign F.byType k (some i) } e.1 j := by
    obtain ⟨a, b⟩ := e
    simp only at hx
    subst hx
    exact lookup_nodup_mem (assign_nodup h.nodup) he
  simp only [ReaderFor, lookup_assign] at hr
  split at hr
  · rename_i e'
    simp only [Option.some.injEq] at hr
    subst hr
    exact hi _ hj
  · rename_i e'
    obtain ⟨w, o, -, h2, h3, -⟩ := h.reader hj
    obtain ⟨w', o', -, g2, g3, -⟩ := h.reader (show ReaderFor F e.1 j from hr)
    have := h2.symm.trans g2
    cases this
    exact e' (g3.symm.trans h3)

/-- The end of making the reader for a type: it is entered. -/
theorem close {F F2 : Factory} {M M2 : Memory} (hT : Tabled F M) (hon : Onward F F2) (h2 : Tabled F2 M2)
    (hnew : ∀ k w, M2.table.lookup k = some w → M.table.lookup k = some w ∨ ∃ p, w = .prim p) (hd : M2.descs = M.descs)
    {t : TypeNotation} (hk : M.table.lookup t.name = none) {i : Nat} (hi : F.objs.length ≤ i) {o : Ser}
    (ho : F2.objs[i]? = some o) (hty : o.type = t.name)
    (hf : Fits { F2 with byType := Factory.assign F2.byType t.name (some i) } (.type t) o) :
    Tabled { F2 with byType := Factory.assign F2.byType t.name (some i) } { M2 with table := (t.name, .type t) :: M2.table } ∧
      Onward F { F2 with byType := Factory.assign F2.byType t.name (some i) } ∧
      ReaderFor { F2 with byType := Factory.assign F2.byType t.name (some i) } t.name i := by
  have hon' := Onward.enter hT hon hk hi
  refine ⟨h2.enter ho hty hf (fun k' w' i' o' hne hw' hi' ho' hfit => ?_) (fun d => hd ▸ hT.undescribed hk d), hon',
    by simp [ReaderFor, lookup_assign]⟩
  rcases hnew k' w' hw' with hold | ⟨p, rfl⟩
  · obtain ⟨i2, o2, g1, g2, g3, g4⟩ := hT.hit k' w' hold
    have : i' = i2 := by have := hi'.symm.trans (hon.types _ _ g1); simpa using this
    subst this
    have := (hon.objs _ _ g2).symm.trans ho'
    cases this
    exact g4.further hon'.further
  · exact hfit

/-- Filling in the readers of an object not entered. -/
theorem Tabled.install {F : Factory} {M : Memory} (h : Tabled F M) {i : Nat} (hi : ∀ k, ¬ ReaderFor F k i) (g : Ser → Ser) :
    Tabled { F with objs := F.objs.modify i g } M := by
  have same : ∀ k j, ReaderFor F k j → (F.objs.modify i g)[j]? = F.objs[j]? := by
    intro k j hj
    have : ¬ i = j := by rintro rfl; exact hi k hj
    simp [List.getElem?_modify, this]
  have hg : ∀ j, Gone F j → Gone { F with objs := F.objs.modify i g } j :=
    fun j hj => ⟨by simpa using hj.made, hj.types, hj.descs⟩
  refine ⟨h.nodup, fun e he j hj => by simpa using h.desc e he j hj, h.miss, fun k w hw => ?_, h.named⟩
  obtain ⟨j, o, h1, h2, h3, h4⟩ := h.hit k w hw
  refine ⟨j, o, h1, (same k j h1).trans h2, h3, ?_⟩
  cases w with
  | key => exact h4
  | prim p => exact h4
  | type t =>
    have href : ∀ ref j, Refers F ref j → Refers { F with objs := F.objs.modify i g } ref j := by
      intro ref j hr
      cases ref with
      | none => exact hg _ hr
      | some t => exact hr
    cases t with
    | comp c => exact ⟨h4.1, h4.2.1, fun f j hm => href _ _ (h4.2.2 f j hm)⟩
    | restr r =>
      simp only [Fits] at h4 ⊢
      cases hk : r.kind with
      | list l =>
        simp only [hk] at h4 ⊢
        obtain ⟨h1, j, h2, h3⟩ := h4
        exact ⟨h1, j, h2, href _ _ h3⟩
      | array l =>
        simp only [hk] at h4 ⊢
        obtain ⟨h1, j, h2, h3⟩ := h4
        exact ⟨h1, j, h2, href _ _ h3⟩
      | map k v =>
        simp only [hk] at h4 ⊢
        obtain ⟨h1, j, j', h2, h3, h5⟩ := h4
        exact ⟨h1, j, j', h2, href _ _ h3, href _ _ h5⟩
      | enum cs => simpa only [hk] using h4

theorem Gone.not_reader {F : Factory} {i : Nat} (h : Gone F i) (k : Str) : ¬ ReaderFor F k i := by
  intro hk
  exact h.types _ (lookup_mem hk) rfl

/-- What follows if the readers needed for a type are found, or not. -/
theorem runs_new {F : Factory} {M : Memory} {t : TypeNotation} {p : FProg Nat} {a : Step}
    {Q : Nat → Factory → Memory → Prop} (ha : F.byType.lookup t.name = none) (h : Runs p F (a M) Q)
    (hq : ∀ i F2 M2, Q i F2 M2 → Tabled { F2 with byType := Factory.assign F2.byType t.name (some i) }
        { M2 with table := (t.name, .type t) :: M2.table } ∧
      Onward F { F2 with byType := Factory.assign F2.byType t.name (some i) } ∧
      ∃ o, F2.objs[i]? = some o ∧ o.type = t.name) :
    Runs (computeIfAbsent t.name p) F ((a.then (enterType t)) M) (fun i F' M' =>
      Tabled F' M' ∧ Onward F F' ∧ ReaderFor F' t.name i) := by
  unfold Step.then
  rcases hr : a M with ⟨r, M2⟩
  rw [hr] at h
  cases r with
  | throw m =>
    obtain ⟨F', g, g'⟩ := h
    refine ⟨F', ?_, g'⟩
    unfold computeIfAbsent
    rw [ha]
    simp only [FProg.bind_def, g]
  | ub m =>
    obtain ⟨F', g⟩ := h
    refine ⟨F', ?_⟩
    unfold computeIfAbsent
    rw [ha]
    simp only [FProg.bind_def, g]
  | ok u =>
    obtain ⟨i, F2, g, g'⟩ := h
    obtain ⟨h1, h2, o, h3, h4⟩ := hq i F2 M2 g'
    refine ⟨i, _, ?_, h1, h2, by simp [ReaderFor, lookup_assign]⟩
    unfold computeIfAbsent
    rw [ha]
    simp only [FProg.bind_def, g, FProg.setType]
    simp [h3, h4]
    rfl

/-- A class not known yet. -/
theorem runs_composite {F : Factory} {M : Memory} (h : Tabled F M) (c : Composite) (hk : M.table.lookup c.name = none)
    (hv : c.name ∉ M.vain) :
    Runs (computeIfAbsent c.name (processComposite c)) F (((useFields c.name c.fields).then (enterType (.comp c))) M)
      (fun i F' M' => Tabled F' M' ∧ Onward F F' ∧ ReaderFor F' c.name i) := by
  have ha := h.unasked hk hv
  obtain ⟨h1, h2, h3⟩ := h.make ⟨.composite, c.name, []⟩
  have hm : ({ F with objs := F.objs ++ [⟨.composite, c.name, []⟩] } : Factory).objs[F.objs.length]? =
      some ⟨.composite, c.name, []⟩ := by simp
  have hfs := runs_fields c.name F.objs.length c.fields (Mid.refl h1)
  refine runs_new (t := .comp c) (Q := fun i F3 M3 => i = F.objs.length ∧ ∃ js F2,
      F3 = { F2 with objs := F2.objs.modify F.objs.length (fun s => { s with subs := js }) } ∧
      Mid { F with objs := F.objs ++ [⟨.composite, c.name, []⟩] } M F2 M3 ∧
      Onward { F with objs := F.objs ++ [⟨.composite, c.name, []⟩] } F2 ∧ js.length = c.fields.length ∧
      ∀ f j, (f, j) ∈ c.fields.zip js → ∃ t, fieldTypeName f = some t ∧
        (Itself c.name f t ∧ j = F.objs.length ∨ ¬ Itself c.name f t ∧ ReaderFor F2 t j)) ha ?_ ?_
  · rcases hr : useFields c.name c.fields M with ⟨r, M2⟩
    rw [hr] at hfs
    cases r with
    | throw m =>
      obtain ⟨F2, g, g'⟩ := hfs
      exact ⟨F2, by simp only [processComposite, FProg.bind_def, FProg.make, g], g'⟩
    | ub m =>
      obtain ⟨F2, g⟩ := hfs
      exact ⟨F2, by simp only [processComposite, FProg.bind_def, FProg.make, g]⟩
    | ok u =>
      obtain ⟨js, F2, g1, g2, g3, g4, g5⟩ := hfs
      exact ⟨F.objs.length, _, by simp only [processComposite, FProg.bind_def, FProg.make, g1, FProg.install, FProg.pure_def],
        rfl, js, F2, rfl, g2, g3, g4, g5⟩
  · rintro i F3 M3 ⟨rfl, js, F2, rfl, g2, g3, g4, g5⟩
    have hno : ∀ k, ¬ ReaderFor F2 k F.objs.length := fun k => (g3.gone _ h3).not_reader k
    have hm2 := g3.objs _ _ hm
    have hI2 := g2.has.install hno (fun s => { s with subs := js })
    have hm3 : ({ F2 with objs := F2.objs.modify F.objs.length (fun s => { s with subs := js }) } : Factory).objs[F.objs.length]? =
        some ⟨.composite, c.name, js⟩ := by
      simp only [List.getElem?_modify, hm2]; simp
    have hon : Onward F { F2 with objs := F2.objs.modify F.objs.length (fun s => { s with subs := js }) } := by
      refine ⟨fun i o ho => ?_, fun k i x => g3.types k i (h2.types k i x), fun j hj => ?_, g3.desc⟩
      · have hlt := (List.getElem?_eq_some_iff.mp ho).1
        have := g3.objs i o (h2.objs i o ho)
        have hne : ¬ F.objs.length = i := by omega
        simp [List.getElem?_modify, hne, this]
      · have := g3.gone j (h2.gone j hj)
        exact ⟨by simpa using this.made, this.types, this.descs⟩
    obtain ⟨k1, k2, k3⟩ := close h hon hI2 g2.new g2.descs (t := .comp c) hk (Nat.le_refl _) hm3 rfl ⟨rfl, g4, by
      intro f j hfj
      obtain ⟨t, ht, hj⟩ := g5 f j hfj
      unfold fieldRef
      rw [ht]
      simp only
      rcases hj with ⟨hI, rfl⟩ | ⟨hI, hj⟩
      · rw [if_neg (fun x => hI.2 x.2)]
        obtain ⟨rfl, -⟩ := hI
        show ReaderFor _ _ _
        simp [ReaderFor, lookup_assign, TypeNotation.name]
      · by_cases hts : t = c.name
        · subst hts
          have hpc : f.kind = .primitive ∨ f.kind = .custom := by
            by_cases hpc : f.kind = .primitive ∨ f.kind = .custom
            · exact hpc
            · exact absurd ⟨rfl, hpc⟩ hI
          rw [if_pos ⟨rfl, hpc⟩]
          have hfr := g2.fresh c.name j hk hj
          simp only [List.length_append, List.length_singleton] at hfr
          refine gone_after (M := M3) (k := c.name) (i := F.objs.length) hI2 hj hno fun e he hx => ?_
          have he' : e ∈ F.byDesc := by rw [← g3.desc.trans h2.desc]; exact he
          have := h.desc e he' j hx
          omega
        · rw [if_neg (fun x => hts x.1)]
          show ReaderFor _ _ _
          simp only [ReaderFor, lookup_assign, TypeNotation.name, if_neg hts]
          exact hj⟩
    exact ⟨k1, k2, _, hm3, rfl⟩

/-- What an element refers to after its list has been entered. -/
theorem refers_after {F F2 : Factory} {M M2 : Memory} (h : Tabled F M) (hmid : Mid F M F2 M2) (r : Restricted)
    (hk : M.table.lookup r.name = none) (o : Ser) {t : Str} {j : Nat} (hj : ReaderFor F2 t j) :
    Refers { { F2 with objs := F2.objs ++ [o] } with byType := Factory.assign F2.byType r.name (some F2.objs.length) }
      (elementRef r t) j := by
  obtain ⟨h3, h4, h5⟩ := hmid.has.make o
  unfold elementRef
  by_cases hts : t = r.name
  · subst hts
    rw [if_pos rfl]
    have hfr := hmid.fresh r.name j hk hj
    refine gone_after h3 (h4.types _ _ hj) (fun k => h5.not_reader k) fun e he hx => ?_
    have he' : e ∈ F.byDesc := by rw [← hmid.onward.desc]; exact he
    have := h.desc e he' j hx
    omega
  · rw [if_neg hts]
    show ReaderFor _ _ _
    simp only [ReaderFor, lookup_assign, if_neg hts]
    exact hj

/-- The end of making a restricted type. -/
theorem runs_made {F : Factory} {M : Memory} (h : Tabled F M) (r : Restricted) (hk : M.table.lookup r.name = none)
    (hv : r.name ∉ M.vain) {p : FProg Nat} {a : Step} (hp : Runs p F (a M) (fun i F3 M3 => ∃ F2 o, Mid F M F2 M3 ∧
      F3 = { F2 with objs := F2.objs ++ [o] } ∧ i = F2.objs.length ∧ o.type = r.name ∧
      Fits { { F2 with objs := F2.objs ++ [o] } with byType := Factory.assign F2.byType r.name (some F2.objs.length) }
        (.type (.restr r)) o)) :
    Runs (computeIfAbsent r.name p) F ((a.then (enterType (.restr r))) M)
      (fun i F' M' => Tabled F' M' ∧ Onward F F' ∧ ReaderFor F' r.name i) := by
  refine runs_new (t := .restr r) (h.unasked hk hv) hp ?_
  rintro i F3 M3 ⟨F2, o, hmid, rfl, rfl, ho, hf⟩
  obtain ⟨h3, h4, h5⟩ := hmid.has.make o
  have hm : ({ F2 with objs := F2.objs ++ [o] } : Factory).objs[F2.objs.length]? = some o := by simp
  obtain ⟨k1, k2, k3⟩ := close h (hmid.onward.trans h4) h3 hmid.new hmid.descs (t := .restr r) hk hmid.onward.length hm ho hf
  exact ⟨k1, k2, o, hm, ho⟩

/-- A type with one kind of element. -/
theorem runs_one {F : Factory} {M : Memory} (h : Tabled F M) (r : Restricted) (hk : M.table.lookup r.name = none)
    (hv : r.name ∉ M.vain) (l : Str) (kind : SerKind) {p : FProg Nat} (hp : p = do
      let i ← fetchReader l
      FProg.make ⟨kind, r.name, [i]⟩)
    (hf : ∀ F' j, Refers F' (elementRef r l) j → Fits F' (.type (.restr r)) ⟨kind, r.name, [j]⟩) :
    Runs (computeIfAbsent r.name p) F (((useElement l).then (enterType (.restr r))) M)
      (fun i F' M' => Tabled F' M' ∧ Onward F F' ∧ ReaderFor F' r.name i) := by
  subst hp
  refine runs_made h r hk hv ?_
  have e : useElement l M = ((useElement l).then done) M := by
    unfold Step.then done
    rcases useElement l M with ⟨r, M2⟩
    cases r <;> rfl
  rw [e]
  refine (runs_fetch (Mid.refl h) l).bind fun j F2 M2 ⟨g2, g3, g4⟩ => ?_
  exact ⟨_, _, rfl, F2, _, g2, rfl, rfl, rfl, hf _ _ (refers_after h g2 r hk _ g4)⟩

/-- A map. -/
theorem runs_two {F : Factory} {M : Memory} (h : Tabled F M) (r : Restricted) (hk : M.table.lookup r.name = none)
    (hv : r.name ∉ M.vain) (a b : Str) (o : Nat → Nat → Ser) (hty : ∀ i j, (o i j).type = r.name) {p : FProg Nat} (hp : p = do
      let i ← fetchReader a
      let j ← fetchReader b
      FProg.make (o i j))
    (hf : ∀ F' i j, Refers F' (elementRef r a) i → Refers F' (elementRef r b) j → Fits F' (.type (.restr r)) (o i j)) :
    Runs (computeIfAbsent r.name p) F ((((useElement a).then (useElement b)).then (enterType (.restr r))) M)
      (fun i F' M' => Tabled F' M' ∧ Onward F F' ∧ ReaderFor F' r.name i) := by
  subst hp
  refine runs_made h r hk hv ?_
  refine (runs_fetch (Mid.refl h) a).bind fun j F2 M2 ⟨g2, g3, g4⟩ => ?_
  have e : useElement b M2 = ((useElement b).then done) M2 := by
    unfold Step.then done
    rcases useElement b M2 with ⟨r, M3⟩
    cases r <;> rfl
  rw [e]
  refine (runs_fetch g2 b).bind fun j' F3 M3 ⟨k2, k3, k4⟩ => ?_
  exact ⟨_, _, rfl, F3, _, k2, rfl, rfl, hty _ _,
    hf _ _ _ (refers_after h k2 r hk _ (k3.types _ _ g4)) (refers_after h k2 r hk _ k4)⟩

/-- A restricted type not known yet. -/
theorem runs_restricted {F : Factory} {M : Memory} (lf : Bool) (h : Tabled F M) (r : Restricted)
    (hk : M.table.lookup r.name = none) (hv : r.name ∉ M.vain) :
    Runs (computeIfAbsent r.name (processRestricted lf r)) F (((useType lf (.restr r)).then (enterType (.restr r))) M)
      (fun i F' M' => Tabled F' M' ∧ Onward F F' ∧ ReaderFor F' r.name i) := by
  unfold useType
  cases hkind : r.kind with
  | enum cs =>
    simp only [hkind]
    refine runs_made h r hk hv ?_
    exact ⟨_, _, by simp only [processRestricted, hkind]; rfl, F, ⟨.enum cs, r.name, []⟩, Mid.refl h, rfl, rfl, rfl,
      by simp only [Fits, hkind]⟩
  | list l =>
    simp only [hkind]
    exact runs_one h r hk hv l .list (by simp only [processRestricted, hkind]) fun F' j hj => by
      simp only [Fits, hkind]; exact ⟨trivial, j, rfl, hj⟩
  | array l =>
    simp only [hkind]
    exact runs_one h r hk hv l .array (by simp only [processRestricted, hkind]) fun F' j hj => by
      simp only [Fits, hkind]; exact ⟨trivial, j, rfl, hj⟩
  | map k v =>
    simp only [hkind]
    cases lf with
    | true =>
      simp only [if_true]
      exact runs_two h r hk hv k v (fun i j => ⟨.map, r.name, [i, j]⟩) (fun _ _ => rfl)
        (by simp only [processRestricted, hkind, if_true]) fun F' i j hi hj => by
          simp only [Fits, hkind]; exact ⟨trivial, i, j, rfl, hi, hj⟩
    | false =>
      simp only [Bool.false_eq_true, if_false]
      exact runs_two h r hk hv v k (fun i j => ⟨.map, r.name, [j, i]⟩) (fun _ _ => rfl)
        (by simp only [processRestricted, hkind, Bool.false_eq_true, if_false]) fun F' i j hi hj => by
          simp only [Fits, hkind]; exact ⟨trivial, j, i, rfl, hj, hi⟩

/-- One type. -/
theorem runs_type {F : Factory} {M : Memory} (lf : Bool) (h : Tabled F M) (t : TypeNotation) :
    Runs (processType lf t) F (study lf t M) (fun i F' M' => Tabled F' M' ∧ Onward F F' ∧ ReaderFor F' t.name i) := by
  unfold study
  cases hk : M.table.lookup t.name with
  | some w =>
    obtain ⟨i, o, h1, -⟩ := h.hit _ w hk
    refine ⟨i, F, ?_, h, Onward.refl F, h1⟩
    unfold processType computeIfAbsent
    have : F.byType.lookup t.name = some (some i) := h1
    rw [this]
  | none =>
    simp only
    by_cases hv : t.name ∈ M.vain
    · rw [if_pos hv]
      exact ⟨F, vain_ub h hk hv _⟩
    · rw [if_neg hv]
      cases t with
      | comp c => exact runs_composite h c hk hv
      | restr r => exact runs_restricted lf h r hk hv

/-- One type, entered by descriptor as well. -/
theorem runs_processOne {F : Factory} {M : Memory} (lf : Bool) (h : Tabled F M) (t : TypeNotation) :
    Runs (processOne lf t) F (((study lf t).then (enterDescriptor t)) M) (fun _ F' M' => Tabled F' M') := by
  unfold processOne
  refine (runs_type lf h t).bind fun i F' M' ⟨h2, h3, h4⟩ => ?_
  have hfu : Further F' { F' with byDesc := Factory.assign F'.byDesc t.descriptor (some i) } := by
    refine ⟨fun _ _ x => x, fun _ _ x => x, fun j hj => ⟨hj.made, hj.types, fun e he hx => ?_⟩⟩
    rcases assign_mem he with rfl | he
    · simp only [Option.some.injEq] at hx
      subst hx
      exact hj.not_reader _ h4
    · exact hj.descs e he hx
  refine ⟨(), { F' with byDesc := Factory.assign F'.byDesc t.descriptor (some i) }, ?_, h2.nodup, ?_, h2.miss, ?_, ?_⟩
  · have : F'.byType.lookup t.name = some (some i) := h4
    simp [FProg.bind_def, typeAt, Factory.subscript, this, setDesc]
  · intro e he k hx
    rcases assign_mem he with rfl | he
    · simp only [Option.some.injEq] at hx
      subst hx
      exact h2.bound h4
    · exact h2.desc e he k hx
  · intro k w hw
    obtain ⟨j, o, g1, g2, g3, g4⟩ := h2.hit k w hw
    exact ⟨j, o, g1, g2, g3, g4.further hfu⟩
  · intro d
    have := h2.named d
    simp only [lookup_assign, lookup_cons_if]
    by_cases e : d = t.descriptor
    · simp only [if_pos e]
      exact ⟨i, h4, rfl⟩
    · simp only [if_neg e]
      exact this

/-- All types. -/
theorem runs_all (lf : Bool) (ts : List TypeNotation) {F : Factory} {M : Memory} (h : Tabled F M) :
    Runs (processAll lf ts) F (studyAll lf ts M) (fun _ F' M' => Tabled F' M') := by
  induction ts generalizing F M with
  | nil => exact runs_pure h
  | cons t ts ih =>
    rw [studyAll]
    exact (runs_processOne lf h t).bind fun _ F' M' h1 => ih h1

/-- The factory of the inspector. -/
theorem tabled_inspector : Tabled (Factory.empty.installCustom 0 publicKeyType) newMemory := by
  have e : publicKeyType = keyType := rfl
  refine ⟨by decide +kernel, by decide +kernel, fun k hk => ?_, fun k w hw => ?_, fun d => rfl⟩
  · unfold newMemory onlyKeys at hk
    simp only [lookup_cons_if] at hk
    split at hk
    · cases hk
    · rename_i hne
      show (Factory.assign [] publicKeyType (some 0)).lookup k = none
      rw [lookup_assign, if_neg (by rw [e]; exact hne)]; rfl
  · unfold newMemory onlyKeys at hw
    simp only [lookup_cons_if] at hw
    split at hw
    · rename_i he
      subst he
      cases hw
      refine ⟨0, ⟨.custom 0, publicKeyType, []⟩, ?_, by decide +kernel, e, 0, rfl⟩
      show (Factory.assign [] publicKeyType (some 0)).lookup keyType = _
      rw [lookup_assign, if_pos e.symm]
    · cases hw

end Corda
