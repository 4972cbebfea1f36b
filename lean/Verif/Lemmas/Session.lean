import Verif.Lemmas.AnyReader

/-
What two memories have in common after the same types.
-/

namespace Corda
open Spec

/-! ### What a type needs, as a list of requests -/

/-- A request for a type. -/
inductive Ask where
  | prim (k : Str)
  | known (k : Str) (m : String)
  | bad

namespace Ask

def run : Ask → Step
  | .prim k => usePrimitive k
  | .known k m => useKnown k m
  | .bad => fun M => (.ub "front of an empty list", M)

def keys : Ask → List Str
  | .prim k => [k]
  | .known k _ => [k]
  | .bad => []

def runAll : List Ask → Step
  | [] => done
  | a :: as => a.run.then (runAll as)

end Ask

theorem then_assoc (a b c : Step) : (a.then b).then c = a.then (b.then c) := by
  funext M
  unfold Step.then
  rcases a M with ⟨r, M'⟩
  cases r <;> rfl

theorem done_then (a : Step) : done.then a = a := rfl

theorem then_done (a : Step) : a.then done = a := by
  funext M
  unfold Step.then done
  rcases a M with ⟨r, M'⟩
  cases r <;> rfl

theorem runAll_append (as bs : List Ask) : Ask.runAll (as ++ bs) = (Ask.runAll as).then (Ask.runAll bs) := by
  induction as with
  | nil => rfl
  | cons a as ih => rw [List.cons_append, Ask.runAll, ih, Ask.runAll, then_assoc]

def fieldAsks (self : Str) (f : Field) : List Ask :=
  match fieldTypeName f with
  | none => [.bad]
  | some t =>
    match f.kind with
    | .primitive => [.prim t]
    | .custom => [.known t "Can't find"]
    | _ => if t = self then [] else [.known t "Can't find"]

def elementAsk (t : Str) : Ask :=
  if t ∈ primitiveNames then .prim t else .known t "Missing type in serialisers map"

def typeAsks (lf : Bool) (t : TypeNotation) : List Ask :=
  match t with
  | .comp c => c.fields.flatMap (fieldAsks c.name)
  | .restr r =>
    match r.kind with
    | .enum _ => []
    | .list l => [elementAsk l]
    | .array l => [elementAsk l]
    | .map k v => if lf then [elementAsk k, elementAsk v] else [elementAsk v, elementAsk k]

theorem useField_asks (self : Str) (f : Field) : useField self f = Ask.runAll (fieldAsks self f) := by
  funext M
  unfold useField fieldAsks
  cases fieldTypeName f with
  | none => rfl
  | some t =>
    have h1 : ∀ a : Ask, Ask.runAll [a] = a.run := fun a => then_done _
    simp only
    cases f.kind <;> simp only [h1, Ask.run] <;> split <;> first | rfl | (rw [h1]; rfl)

theorem useElement_ask (t : Str) : useElement t = (elementAsk t).run := by
  unfold useElement elementAsk
  split <;> rfl

theorem useType_asks (lf : Bool) (t : TypeNotation) : useType lf t = Ask.runAll (typeAsks lf t) := by
  cases t with
  | comp c =>
    show useFields c.name c.fields = Ask.runAll (c.fields.flatMap (fieldAsks c.name))
    generalize c.fields = fs
    induction fs with
    | nil => rfl
    | cons f fs ih => rw [useFields, List.flatMap_cons, runAll_append, ih, useField_asks]
  | restr r =>
    unfold useType typeAsks
    cases hk : r.kind with
    | enum cs => simp only [hk]; rfl
    | list l => simp only [hk, Ask.runAll, then_done, useElement_ask]
    | array l => simp only [hk, Ask.runAll, then_done, useElement_ask]
    | map k v => cases lf <;> simp [hk, Ask.runAll, then_done, useElement_ask]

/-! ### Knowing more -/

/-- Whatever the one knows, the other knows just so. -/
def Less (T T' : Table) : Prop := ∀ k w, T.lookup k = some w → T'.lookup k = some w

theorem Less.refl (T : Table) : Less T T := fun _ _ h => h
theorem Less.trans {A B C : Table} (h : Less A B) (h' : Less B C) : Less A C := fun k w x => h' k w (h k w x)

/-- The outcome of looking after a request. -/
structure Asked (ks : List Str) (M M' : Memory) : Prop where
  less : Less M.table M'.table
  descs : M'.descs = M.descs
  new : ∀ k w, M'.table.lookup k = some w → M.table.lookup k = some w ∨ k ∈ ks ∧ k ∉ M.vain ∧ ∃ p, w = .prim p
  vain : ∀ k ∈ M'.vain, k ∈ M.vain ∨ M'.table.lookup k = none

theorem Asked.refl (ks : List Str) (M : Memory) : Asked ks M M :=
  ⟨Less.refl _, rfl, fun _ _ h => .inl h, fun _ h => .inl h⟩

/-- If it is successful. -/
structure Served (ks : List Str) (M M' : Memory) : Prop extends Asked ks M M' where
  same : M'.vain = M.vain
  known : ∀ k ∈ ks, M'.table.lookup k ≠ none

theorem ask_any {a : Ask} {M M' : Memory} {r : Res Unit} (h : a.run M = (r, M')) : Asked a.keys M M' := by
  cases a with
  | bad => cases h; exact Asked.refl _ _
  | known k m =>
    simp only [Ask.run, useKnown] at h
    split at h
    · cases h; exact Asked.refl _ _
    · rename_i hn
      cases h
      refine ⟨Less.refl _, rfl, fun _ _ h => .inl h, fun k' hk' => ?_⟩
      rcases List.mem_cons.mp hk' with e | e
      · subst e; exact .inr hn
      · exact .inl e
  | prim k =>
    simp only [Ask.run, usePrimitive] at h
    split at h
    · cases h; exact Asked.refl _ _
    · rename_i hn
      split at h
      · cases h; exact Asked.refl _ _
      · rename_i hv
        split at h
        · rename_i p hp
          cases h
          refine ⟨fun k' w hk' => ?_, rfl, fun k' w hk' => ?_, fun k' hk' => .inl hk'⟩
          · have : k' ≠ k := by rintro rfl; rw [hn] at hk'; cases hk'
            simp only [lookup_cons_if, if_neg this]
            exact hk'
          · simp only [lookup_cons_if] at hk'
            split at hk'
            · rename_i e
              subst e
              cases hk'
              exact .inr ⟨by simp [Ask.keys], hv, p, rfl⟩
            · exact .inl hk'
        · cases h; exact Asked.refl _ _

theorem ask_ok {a : Ask} {M M' : Memory} {u : Unit} (h : a.run M = (.ok u, M')) : Served a.keys M M' := by
  refine { ask_any h with same := ?_, known := ?_ }
  all_goals cases a with
    | bad => cases h
    | known k m =>
      simp only [Ask.run, useKnown] at h
      split at h
      · rename_i hn
        cases h
        first | rfl | (intro k' hk'; simp only [Ask.keys, List.mem_singleton] at hk'; subst hk'; rw [hn]; simp)
      · cases h
    | prim k =>
      simp only [Ask.run, usePrimitive] at h
      split at h
      · rename_i hn
        cases h
        first | rfl | (intro k' hk'; simp only [Ask.keys, List.mem_singleton] at hk'; subst hk'; rw [hn]; simp)
      · split at h
        · cases h
        · split at h
          · cases h
            first | rfl | (intro k' hk'; simp only [Ask.keys, List.mem_singleton] at hk'; subst hk'; simp)
          · cases h

theorem Asked.trans {ks ls : List Str} {A B C : Memory} (h : Asked ks A B) (hs : B.vain = A.vain) (h' : Asked ls B C) :
    Asked (ks ++ ls) A C := by
  refine ⟨h.less.trans h'.less, h'.descs.trans h.descs, fun k w hk => ?_, fun k hk => ?_⟩
  · rcases h'.new k w hk with x | ⟨x, y, z⟩
    · rcases h.new k w x with x | ⟨x, y⟩
      · exact .inl x
      · exact .inr ⟨List.mem_append_left _ x, y⟩
    · exact .inr ⟨List.mem_append_right _ x, hs ▸ y, z⟩
  · rcases h'.vain k hk with x | x
    · exact .inl (hs ▸ x)
    · exact .inr x

theorem Asked.weaken {ks ls : List Str} {A B : Memory} (h : Asked ks A B) (hsub : ∀ k ∈ ks, k ∈ ls) : Asked ls A B :=
  ⟨h.less, h.descs, fun k w hk => (h.new k w hk).imp id fun x => ⟨hsub k x.1, x.2⟩, h.vain⟩

theorem asks_ok {as : List Ask} {M M' : Memory} {u : Unit} (h : Ask.runAll as M = (.ok u, M')) :
    Served (as.flatMap Ask.keys) M M' := by
  induction as generalizing M with
  | nil => cases h; exact { Asked.refl _ _ with same := rfl, known := by simp }
  | cons a as ih =>
    rw [Ask.runAll, Step.then] at h
    rcases ha : a.run M with ⟨r, M1⟩
    rw [ha] at h
    cases r with
    | throw m => cases h
    | ub m => cases h
    | ok u =>
      have h1 := ask_ok ha
      have h2 := ih h
      rw [List.flatMap_cons]
      refine { h1.toAsked.trans h1.same h2.toAsked with same := h2.same.trans h1.same, known := fun k hk => ?_ }
      rcases List.mem_append.mp hk with e | e
      · have := h1.known k e
        cases hw : M1.table.lookup k with
        | none => exact absurd hw this
        | some w => rw [h2.less k w hw]; simp
      · exact h2.known k e

theorem asks_any {as : List Ask} {M M' : Memory} {r : Res Unit} (h : Ask.runAll as M = (r, M')) :
    Asked (as.flatMap Ask.keys) M M' := by
  induction as generalizing M with
  | nil => cases h; exact Asked.refl _ _
  | cons a as ih =>
    rw [Ask.runAll, Step.then] at h
    rcases ha : a.run M with ⟨r1, M1⟩
    rw [ha] at h
    rw [List.flatMap_cons]
    cases r1 with
    | throw m => cases h; exact (ask_any ha).weaken fun k hk => List.mem_append_left _ hk
    | ub m => cases h; exact (ask_any ha).weaken fun k hk => List.mem_append_left _ hk
    | ok u => exact (ask_any ha).trans (ask_ok ha).same (ih h)

/-- What is successful with one memory is so with one that knows more and does not contradict. -/
theorem asks_sim {as : List Ask} {M E : Memory} {u : Unit} (h : Ask.runAll as M = (.ok u, E)) {N : Memory}
    (hl : Less M.table N.table) (ha : Agrees E.table N) :
    ∃ N', Ask.runAll as N = (.ok (), N') ∧ Less E.table N'.table ∧ N'.vain = N.vain ∧ N'.descs = N.descs ∧
      ∀ k w, N'.table.lookup k = some w → N.table.lookup k = some w ∨ E.table.lookup k = some w := by
  induction as generalizing M N with
  | nil => cases h; exact ⟨N, rfl, hl, rfl, rfl, fun _ _ x => .inl x⟩
  | cons a as ih =>
    rw [Ask.runAll, Step.then] at h ⊢
    rcases hr : a.run M with ⟨r, M1⟩
    rw [hr] at h
    cases r with
    | throw m => cases h
    | ub m => cases h
    | ok u =>
      have h1 := ask_ok hr
      have h2 := asks_ok h
      have step : ∃ N1, a.run N = (.ok (), N1) ∧ Less M1.table N1.table ∧ N1.vain = N.vain ∧ N1.descs = N.descs ∧
          ∀ k w, N1.table.lookup k = some w → N.table.lookup k = some w ∨ E.table.lookup k = some w := by
        have stay : (∀ k ∈ a.keys, N.table.lookup k ≠ none) → Less M1.table N.table := by
          intro hk k w hw
          rcases h1.new k w hw with x | ⟨x, -⟩
          · exact hl k w x
          · exact ((ha k w (h2.less k w hw)).2).resolve_left (hk k x)
        cases a with
        | bad => cases hr
        | known k m =>
          simp only [Ask.run, useKnown] at hr ⊢
          cases hk : M.table.lookup k with
          | none => rw [hk] at hr; cases hr
          | some w =>
            rw [hl k w hk]
            refine ⟨N, rfl, stay fun k' hk' => ?_, rfl, rfl, fun _ _ x => .inl x⟩
            simp only [Ask.keys, List.mem_singleton] at hk'
            subst hk'
            rw [hl _ w hk]; simp
        | prim k =>
          simp only [Ask.run, usePrimitive] at hr ⊢
          cases hN : N.table.lookup k with
          | some w =>
            refine ⟨N, rfl, stay fun k' hk' => ?_, rfl, rfl, fun _ _ x => .inl x⟩
            simp only [Ask.keys, List.mem_singleton] at hk'
            subst hk'
            rw [hN]; simp
          | none =>
            have hM : M.table.lookup k = none := by
              cases hM : M.table.lookup k with
              | none => rfl
              | some w => rw [hl k w hM] at hN; cases hN
            rw [hM] at hr
            simp only at hr ⊢
            split at hr
            · cases hr
            · cases hp : primNamed k with
              | none => rw [hp] at hr; cases hr
              | some p =>
                rw [hp] at hr
                cases hr
                have hE : E.table.lookup k = some (.prim p) := h2.less k _ (by simp)
                rw [if_neg (ha k _ hE).1]
                refine ⟨_, rfl, fun k' w hw => ?_, rfl, rfl, fun k' w hw => ?_⟩
                · simp only [lookup_cons_if] at hw ⊢
                  split
                  · rename_i e; rw [if_pos e] at hw; exact hw
                  · rename_i e; rw [if_neg e] at hw; exact hl k' w hw
                · simp only [lookup_cons_if] at hw
                  split at hw
                  · rename_i e; subst e; cases hw; exact .inr hE
                  · exact .inl hw
      obtain ⟨N1, g1, g2, g3, g4, g5⟩ := step
      obtain ⟨N', k1, k2, k3, k4, k5⟩ := ih h g2 (fun k w hw => ⟨by rw [g3]; exact (ha k w hw).1, by
        cases hN : N1.table.lookup k with
        | none => exact .inl rfl
        | some w1 =>
          right
          rcases g5 k w1 hN with x | x
          · rcases (ha k w hw).2 with y | y
            · rw [y] at x; cases x
            · rw [← x, y]
          · rw [← x, hw]⟩)
      refine ⟨N', by rw [g1]; exact k1, k2, k3.trans g3, k4.trans g4, fun k w hw => ?_⟩
      rcases k5 k w hw with x | x
      · exact g5 k w x
      · exact .inr x

/-! ### What is said of the types known -/

/-- The names under which the parts of a value are read. -/
def refsOf : TypeNotation → List Str
  | .comp c => c.fields.filterMap (fieldRef c)
  | .restr r =>
    match r.kind with
    | .enum _ => []
    | .list l => (elementRef r l).toList
    | .array l => (elementRef r l).toList
    | .map k v => (elementRef r k).toList ++ (elementRef r v).toList

/-- All that is needed for what is known is known, and nothing of it was asked for in vain. -/
structure Closed (M : Memory) : Prop where
  name : ∀ k t, M.table.lookup k = some (.type t) → k = t.name
  refs : ∀ k t, M.table.lookup k = some (.type t) → ∀ r ∈ refsOf t, M.table.lookup r ≠ none
  vain : ∀ k ∈ M.vain, M.table.lookup k = none
  descs : ∀ e ∈ M.descs, M.table.lookup e.2 ≠ none

theorem elementAsk_keys (l : Str) : (elementAsk l).keys = [l] := by
  unfold elementAsk
  split <;> rfl

/-- A part is read under the name of the type itself or one that was requested. -/
theorem refs_asked {lf : Bool} {t : TypeNotation} {r : Str} (h : r ∈ refsOf t) :
    r = t.name ∨ r ∈ (typeAsks lf t).flatMap Ask.keys := by
  cases t with
  | comp c =>
    simp only [refsOf, List.mem_filterMap] at h
    obtain ⟨f, hf, hr⟩ := h
    unfold fieldRef at hr
    cases ht : fieldTypeName f with
    | none => rw [ht] at hr; cases hr
    | some t =>
      rw [ht] at hr
      simp only at hr
      split at hr
      · cases hr
      · rename_i hn
        cases hr
        by_cases hts : r = c.name
        · exact .inl hts
        · right
          simp only [typeAsks, List.mem_flatMap]
          refine ⟨if f.kind = .primitive then .prim r else .known r "Can't find", ⟨f, hf, ?_⟩, ?_⟩
          · unfold fieldAsks
            rw [ht]
            cases hk : f.kind <;> simp [hts]
          · split <;> simp [Ask.keys]
  | restr r' =>
    right
    have he : ∀ l, r ∈ (elementRef r' l).toList → r = l := by
      intro l hl
      unfold elementRef at hl
      split at hl
      · cases hl
      · simpa using hl
    simp only [refsOf] at h
    simp only [typeAsks]
    cases hk : r'.kind with
    | enum cs => rw [hk] at h; cases h
    | list l => rw [hk] at h; simp only at h ⊢; rw [he l h]; simp [elementAsk_keys]
    | array l => rw [hk] at h; simp only at h ⊢; rw [he l h]; simp [elementAsk_keys]
    | map k v =>
      rw [hk] at h
      simp only [List.mem_append] at h ⊢
      rcases h with h | h
      · rw [he k h]; cases lf <;> simp [elementAsk_keys]
      · rw [he v h]; cases lf <;> simp [elementAsk_keys]

/-- What was requested, if it is not of the name of the type itself, is the name of a part. -/
theorem asked_refs {lf : Bool} {t : TypeNotation} {k : Str} (h : k ∈ (typeAsks lf t).flatMap Ask.keys) (hn : k ≠ t.name) :
    k ∈ refsOf t := by
  cases t with
  | comp c =>
    simp only [typeAsks, List.mem_flatMap] at h
    obtain ⟨a, ⟨f, hf, ha⟩, hk⟩ := h
    simp only [refsOf, List.mem_filterMap]
    refine ⟨f, hf, ?_⟩
    unfold fieldAsks at ha
    unfold fieldRef
    cases ht : fieldTypeName f with
    | none =>
      rw [ht] at ha
      simp only [List.mem_singleton] at ha
      subst ha
      cases hk
    | some t =>
      rw [ht] at ha
      have hkt : k = t := by
        revert ha
        cases f.kind <;> simp only [List.mem_singleton] <;> intro ha
        all_goals first
          | (subst ha; simpa [Ask.keys] using hk)
          | (split at ha
             · cases ha
             · simp only [List.mem_singleton] at ha
               subst ha
               simpa [Ask.keys] using hk)
      subst hkt
      simp only
      rw [if_neg (fun x => hn x.1)]
  | restr r =>
    have he : ∀ l, k = l → k ∈ (elementRef r l).toList := by
      rintro l rfl
      unfold elementRef
      rw [if_neg (show ¬ k = r.name from hn)]
      simp
    simp only [typeAsks] at h
    simp only [refsOf]
    cases hk : r.kind with
    | enum cs => rw [hk] at h; cases h
    | list l => rw [hk] at h; simp only [List.flatMap_cons, List.flatMap_nil, elementAsk_keys, List.append_nil, List.mem_singleton] at h; exact he l h
    | array l => rw [hk] at h; simp only [List.flatMap_cons, List.flatMap_nil, elementAsk_keys, List.append_nil, List.mem_singleton] at h; exact he l h
    | map a b =>
      rw [hk] at h
      simp only [List.mem_append]
      cases lf <;> simp [elementAsk_keys] at h <;> rcases h with h | h
      · exact .inr (he b h)
      · exact .inl (he a h)
      · exact .inl (he a h)
      · exact .inr (he b h)

theorem Closed.asked {ks : List Str} {M M' : Memory} (h : Closed M) (ha : Asked ks M M') : Closed M' := by
  have keep : ∀ k, M.table.lookup k ≠ none → M'.table.lookup k ≠ none := by
    intro k hk
    cases hw : M.table.lookup k with
    | none => exact absurd hw hk
    | some w => rw [ha.less k w hw]; simp
  have old : ∀ k t, M'.table.lookup k = some (.type t) → M.table.lookup k = some (.type t) := by
    intro k t hk
    rcases ha.new k _ hk with x | ⟨-, -, p, x⟩
    · exact x
    · cases x
  refine ⟨fun k t hk => h.name k t (old k t hk), fun k t hk r hr => keep r (h.refs k t (old k t hk) r hr), fun k hk => ?_,
    fun e he => keep _ (h.descs e (ha.descs ▸ he))⟩
  rcases ha.vain k hk with x | x
  · cases hw : M'.table.lookup k with
    | none => rfl
    | some w =>
      rcases ha.new k w hw with y | ⟨-, y, -⟩
      · rw [h.vain k x] at y; cases y
      · exact absurd x y
  · exact x

/-! ### One type -/

/-- The outcome of one or more types. -/
structure Studied (M M' : Memory) : Prop where
  less : Less M.table M'.table
  closed : Closed M → Closed M'

theorem Studied.refl (M : Memory) : Studied M M := ⟨Less.refl _, id⟩
theorem Studied.trans {A B C : Memory} (h : Studied A B) (h' : Studied B C) : Studied A C :=
  ⟨h.less.trans h'.less, fun x => h'.closed (h.closed x)⟩

theorem study_new {lf : Bool} {t : TypeNotation} {M : Memory} (hk : M.table.lookup t.name = none) (hv : t.name ∉ M.vain) :
    study lf t M = ((Ask.runAll (typeAsks lf t)).then (enterType t)) M := by
  unfold study
  rw [hk]
  simp only
  rw [if_neg hv, useType_asks]

theorem study_any {lf : Bool} {t : TypeNotation} {M M' : Memory} {r : Res Unit} (h : study lf t M = (r, M')) :
    Studied M M' := by
  cases hk : M.table.lookup t.name with
  | some w => unfold study at h; rw [hk] at h; cases h; exact Studied.refl _
  | none =>
    by_cases hv : t.name ∈ M.vain
    · unfold study at h
      rw [hk] at h
      simp only at h
      rw [if_pos hv] at h
      cases h
      exact Studied.refl _
    · rw [study_new hk hv, Step.then] at h
      rcases ha : Ask.runAll (typeAsks lf t) M with ⟨r1, E⟩
      rw [ha] at h
      cases r1 with
      | throw m => cases h; exact ⟨(asks_any ha).less, fun x => x.asked (asks_any ha)⟩
      | ub m => cases h; exact ⟨(asks_any ha).less, fun x => x.asked (asks_any ha)⟩
      | ok u =>
        cases h
        have hs := asks_ok ha
        refine ⟨fun k w hw => ?_, fun hc => ?_⟩
        · have : k ≠ t.name := by rintro rfl; rw [hk] at hw; cases hw
          simp only [lookup_cons_if, if_neg this]
          exact hs.less k w hw
        · have hE := hc.asked hs.toAsked
          have keep : ∀ k, E.table.lookup k ≠ none →
              (((t.name, How.type t) :: E.table).lookup k) ≠ none := by
            intro k hk
            rw [lookup_cons_if]
            split
            · simp
            · exact hk
          refine ⟨fun k u hu => ?_, fun k u hu r hr => ?_, fun k hk' => ?_, fun e he => keep _ (hE.descs e he)⟩
          · simp only [lookup_cons_if] at hu
            split at hu
            · cases hu; assumption
            · exact hE.name k u hu
          · simp only [lookup_cons_if] at hu
            split at hu
            · cases hu
              rcases refs_asked (lf := lf) hr with e | e
              · subst e; simp
              · exact keep r (hs.known r e)
            · exact keep r (hE.refs k u hu r hr)
          · have hk'' : k ∈ E.vain := hk'
            have : k ≠ t.name := by
              rintro rfl
              rw [hs.same] at hk''
              exact hv hk''
            simp only [lookup_cons_if, if_neg this]
            exact hE.vain k hk''

theorem study_known {lf : Bool} {t : TypeNotation} {M M' : Memory} {u : Unit} (h : study lf t M = (.ok u, M')) :
    M'.table.lookup t.name ≠ none := by
  unfold study at h
  split at h
  · rename_i hw
    cases h
    rw [hw]; simp
  · split at h
    · cases h
    · rw [Step.then] at h
      rcases ha : useType lf t M with ⟨r, E⟩
      rw [ha] at h
      cases r with
      | throw m => cases h
      | ub m => cases h
      | ok u => cases h; simp

theorem Closed.described {M : Memory} (h : Closed M) {t : TypeNotation} (ht : M.table.lookup t.name ≠ none) :
    Closed { M with descs := (t.descriptor, t.name) :: M.descs } := by
  refine ⟨h.name, h.refs, h.vain, fun e he => ?_⟩
  rcases List.mem_cons.mp he with rfl | he
  · exact ht
  · exact h.descs e he

/-- The same types with a memory that knows more. -/
theorem study_sim {lf : Bool} {t : TypeNotation} {M M' : Memory} {u : Unit} (h : study lf t M = (.ok u, M')) {T : Table}
    (hT : Less M'.table T) {N : Memory} (hl : Less M.table N.table) (ha : Agrees T N) (hc : Closed N) :
    ∃ N', study lf t N = (.ok (), N') ∧ Less M'.table N'.table ∧ Agrees T N' ∧ Closed N' ∧ N'.descs = N.descs := by
  cases hk : M.table.lookup t.name with
  | some w =>
    unfold study at h
    rw [hk] at h
    cases h
    refine ⟨N, ?_, hl, ha, hc, rfl⟩
    unfold study
    rw [hl _ w hk]
  | none =>
    have hv : t.name ∉ M.vain := by
      intro hv
      unfold study at h
      rw [hk] at h
      simp only at h
      rw [if_pos hv] at h
      cases h
    rw [study_new hk hv, Step.then] at h
    rcases hr : Ask.runAll (typeAsks lf t) M with ⟨r1, E⟩
    rw [hr] at h
    cases r1 with
    | throw m => cases h
    | ub m => cases h
    | ok u1 =>
      cases h
      have hs := asks_ok hr
      have hTn : T.lookup t.name = some (.type t) := hT _ _ (by simp)
      have hTo : ∀ k w, k ≠ t.name → E.table.lookup k = some w → T.lookup k = some w := fun k w hn hw =>
        hT k w (by simp only [lookup_cons_if, if_neg hn]; exact hw)
      cases hN : N.table.lookup t.name with
      | some w =>
        have hw : w = .type t := by
          rcases (ha _ _ hTn).2 with x | x
          · rw [x] at hN; cases hN
          · rw [x] at hN; cases hN; rfl
        subst hw
        refine ⟨N, by unfold study; rw [hN], fun k w hw => ?_, ha, hc, rfl⟩
        simp only [lookup_cons_if] at hw
        split at hw
        · rename_i e; subst e; cases hw; exact hN
        · rename_i e
          rcases hs.new k w hw with x | ⟨x, -⟩
          · exact hl k w x
          · have := hc.refs _ _ hN k (asked_refs x e)
            exact ((ha k w (hTo k w e hw)).2).resolve_left this
      | none =>
        have hvN := (ha _ _ hTn).1
        obtain ⟨N', g1, g2, g3, g4, g5⟩ := asks_sim hr hl (fun k w hw => by
          by_cases e : k = t.name
          · subst e; exact ⟨hvN, .inl hN⟩
          · exact ha k w (hTo k w e hw))
        have hst : study lf t N = (.ok (), { N' with table := (t.name, .type t) :: N'.table }) := by
          rw [study_new hN hvN, Step.then, g1]
          rfl
        refine ⟨_, hst, fun k w hw => ?_, fun k w hw => ⟨by rw [g3]; exact (ha k w hw).1, ?_⟩, (study_any hst).closed hc, g4⟩
        · simp only [lookup_cons_if] at hw ⊢
          split
          · rename_i e; rw [if_pos e] at hw; exact hw
          · rename_i e; rw [if_neg e] at hw; exact g2 k w hw
        · simp only [lookup_cons_if]
          split
          · rename_i e; subst e; rw [hTn] at hw; cases hw; exact .inr rfl
          · rename_i e
            cases hl' : N'.table.lookup k with
            | none => exact .inl rfl
            | some w' =>
              right
              rcases g5 k w' hl' with x | x
              · rcases (ha k w hw).2 with y | y
                · rw [y] at x; cases x
                · rw [← x, y]
              · rw [← hw, hTo k w' e x]

/-! ### All types -/

theorem studyAll_any {lf : Bool} {ts : List TypeNotation} {M M' : Memory} {r : Res Unit} (h : studyAll lf ts M = (r, M')) :
    Studied M M' := by
  induction ts generalizing M with
  | nil => cases h; exact Studied.refl _
  | cons t ts ih =>
    rw [studyAll, Step.then, Step.then] at h
    rcases hs : study lf t M with ⟨r1, M1⟩
    rw [hs] at h
    cases r1 with
    | throw m => cases h; exact study_any hs
    | ub m => cases h; exact study_any hs
    | ok u =>
      simp only [enterDescriptor] at h
      have h1 := study_any hs
      have h2 := ih h
      exact ⟨h1.less.trans h2.less, fun x => h2.closed ((h1.closed x).described (study_known hs))⟩

theorem studyAll_descs {lf : Bool} {ts : List TypeNotation} {M M' : Memory} {u : Unit} (h : studyAll lf ts M = (.ok u, M')) :
    M'.descs = (ts.reverse.map fun t => (t.descriptor, t.name)) ++ M.descs := by
  induction ts generalizing M with
  | nil => cases h; rfl
  | cons t ts ih =>
    rw [studyAll, Step.then, Step.then] at h
    rcases hs : study lf t M with ⟨r1, M1⟩
    rw [hs] at h
    cases r1 with
    | throw m => cases h
    | ub m => cases h
    | ok u =>
      simp only [enterDescriptor] at h
      rw [ih h]
      have : M1.descs = M.descs := by
        unfold study at hs
        split at hs
        · cases hs; rfl
        · split at hs
          · cases hs
          · rw [useType_asks, Step.then] at hs
            rcases ha : Ask.runAll (typeAsks lf t) M with ⟨r2, E⟩
            rw [ha] at hs
            cases r2 with
            | throw m => cases hs
            | ub m => cases hs
            | ok u => cases hs; exact (asks_ok ha).descs
      simp [this]

theorem studyAll_sim {lf : Bool} {ts : List TypeNotation} {M M' : Memory} {u : Unit} (h : studyAll lf ts M = (.ok u, M'))
    {T : Table} (hT : Less M'.table T) {N : Memory} (hl : Less M.table N.table) (ha : Agrees T N) (hc : Closed N) :
    ∃ N', studyAll lf ts N = (.ok (), N') ∧ Less M'.table N'.table := by
  induction ts generalizing M N with
  | nil => cases h; exact ⟨N, rfl, hl⟩
  | cons t ts ih =>
    rw [studyAll, Step.then, Step.then] at h
    rcases hs : study lf t M with ⟨r1, M1⟩
    rw [hs] at h
    cases r1 with
    | throw m => cases h
    | ub m => cases h
    | ok u1 =>
      simp only [enterDescriptor] at h
      have h2 := studyAll_any h
      obtain ⟨N1, g1, g2, g3, g4, g5⟩ := study_sim hs (h2.less.trans hT) hl ha hc
      obtain ⟨N2, k1, k2⟩ := ih (N := { N1 with descs := (t.descriptor, t.name) :: N1.descs }) h g2 g3 (g4.described (study_known g1))
      refine ⟨N2, ?_, k2⟩
      rw [studyAll, Step.then, Step.then, g1]
      simp only [enterDescriptor]
      exact k1

/-! ### The text -/

theorem textUnder_eq {f g : Texts} {named : Bool} {ref : Option Str} {n : Option Node}
    (h : ∀ t, ref = some t → f named t n = g named t n) : textUnder f named ref n = textUnder g named ref n := by
  cases ref with
  | none => rfl
  | some t => exact h t rfl

/-- The text depends only on what is known about the types needed. -/
theorem textIn_less {lf : Bool} {ts : List TypeNotation} {M : Memory} {T : Table} (hl : Less M.table T) (hc : Closed M) :
    ∀ (d : Nat) (named : Bool) (t : Str) (n : Option Node), M.table.lookup t ≠ none →
      textIn lf ts M.table d named t n = textIn lf ts T d named t n := by
  intro d
  induction d with
  | zero => intro _ _ _ _; rfl
  | succ d ih =>
    intro named t n ht
    rw [textIn, textIn]
    cases hw : M.table.lookup t with
    | none => exact absurd hw ht
    | some w =>
      rw [hl t w hw]
      cases w with
      | key => rfl
      | prim p => rfl
      | type u =>
        have href := hc.refs t u hw
        cases u with
        | comp c =>
          simp only
          have : propertyTexts ts (textIn lf ts M.table d) c n = propertyTexts ts (textIn lf ts T d) c n := by
            unfold propertyTexts
            cases describedParts n with
            | throw m => rfl
            | ub m => rfl
            | ok ks =>
              simp only [Res.bind_eq, Res.bind]
              cases symbolOf (nth ks 0) with
              | throw m => rfl
              | ub m => rfl
              | ok e =>
                simp only
                cases typeWith ts e with
                | throw m => rfl
                | ub m => rfl
                | ok v =>
                  cases v with
                  | restr r => rfl
                  | comp c' =>
                    simp only
                    split
                    · cases listParts (nth ks 1) with
                      | throw m => rfl
                      | ub m => rfl
                      | ok ns =>
                        simp only
                        refine all_congr fun x hx => ?_
                        rw [textUnder_eq fun s hs => ih true s _ (href s ?_)]
                        simp only [refsOf, List.mem_filterMap]
                        have hm := List.fst_mem_of_mem_zipIdx hx
                        exact ⟨x.1.2, (List.of_mem_zip hm).2, hs⟩
                    · rfl
          rw [this]
        | restr r =>
          simp only
          have el : ∀ l, (∀ s, elementRef r l = some s → s ∈ refsOf (.restr r)) →
              elementTexts ts (textIn lf ts M.table d) (elementRef r l) n = elementTexts ts (textIn lf ts T d) (elementRef r l) n := by
            intro l hs
            unfold elementTexts
            cases body ts n with
            | throw m => rfl
            | ub m => rfl
            | ok b =>
              simp only [Res.bind_eq, Res.bind]
              exact all_congr fun e _ => textUnder_eq fun s h => ih false s _ (href s (hs s h))
          cases hk : r.kind with
          | enum cs => rfl
          | list l => simp only; rw [el l (fun s hs => by simp [refsOf, hk, hs])]
          | array l => simp only; rw [el l (fun s hs => by simp [refsOf, hk, hs])]
          | map k v =>
            simp only
            have : entryTexts lf ts (textIn lf ts M.table d) (elementRef r k) (elementRef r v) n =
                entryTexts lf ts (textIn lf ts T d) (elementRef r k) (elementRef r v) n := by
              unfold entryTexts
              cases body ts n with
              | throw m => rfl
              | ub m => rfl
              | ok b =>
                simp only [Res.bind_eq, Res.bind]
                have h1 : ∀ m, textUnder (textIn lf ts M.table d) false (elementRef r k) m =
                    textUnder (textIn lf ts T d) false (elementRef r k) m := fun m =>
                  textUnder_eq fun s h => ih false s _ (href s (by simp [refsOf, hk, h]))
                have h2 : ∀ m, textUnder (textIn lf ts M.table d) false (elementRef r v) m =
                    textUnder (textIn lf ts T d) false (elementRef r v) m := fun m =>
                  textUnder_eq fun s h => ih false s _ (href s (by simp [refsOf, hk, h]))
                simp only [h1, h2]
            rw [this]

end Corda
