import Verif.Lemmas.Session
import Verif.Props.AnySchema
import Verif.Props.SchemaTypes
import Verif.Props.Untouched

/-
C93: what one factory makes of several blobs.
-/

namespace Corda.Props
open Corda Prog Spec FProg

/-! ### The schema of an envelope -/

private theorem schemaOf_make {rec : Option Node → Res Element} {ps : List Node} {e : Element} (h : schemaOf rec ps = .ok e) :
    ∃ ls, e = .schema (Schema.make ls) := by
  unfold schemaOf at h
  rw [Res.bind_eq, Res.bind_eq_ok] at h
  obtain ⟨ls, -, h⟩ := h
  exact ⟨ls, (Res.ok.inj h).symm⟩

private theorem fieldOf_kind {ps : List Node} {e : Element} (h : fieldOf ps = .ok e) : ∃ f, e = .field f := by
  unfold fieldOf at h
  simp only [Res.bind_eq, Res.bind_eq_ok] at h
  obtain ⟨_, -, _, -, _, -, _, -, _, -, _, -, _, -, f, -, h⟩ := h
  exact ⟨f, (Res.ok.inj h).symm⟩

private theorem compositeOf_kind {rec : Option Node → Res Element} {ps : List Node} {e : Element}
    (h : compositeOf rec ps = .ok e) : ∃ t, e = .notation t := by
  unfold compositeOf at h
  simp only [Res.bind_eq, Res.bind_eq_ok] at h
  obtain ⟨_, -, _, -, _, -, _, -, _, -, h⟩ := h
  exact ⟨_, (Res.ok.inj h).symm⟩

private theorem restrictedOf_kind {rec : Option Node → Res Element} {ps : List Node} {e : Element}
    (h : restrictedOf rec ps = .ok e) : ∃ t, e = .notation t := by
  unfold restrictedOf at h
  simp only [Res.bind_eq, Res.bind_eq_ok] at h
  obtain ⟨_, -, _, -, _, -, _, -, _, -, _, -, _, -, h⟩ := h
  exact ⟨_, (Res.ok.inj h).symm⟩

private theorem envelopeOf_kind {rec : Option Node → Res Element} {ps : List Node} {e : Element}
    (h : envelopeOf rec ps = .ok e) : ∃ s o m, e = .envelope s o ∧ rec m = .ok (.schema s) := by
  unfold envelopeOf at h
  simp only [Res.bind_eq, Res.bind_eq_ok] at h
  obtain ⟨_, -, o, -, e', he, s, hs, h⟩ := h
  refine ⟨s, o, nth ps 1, (Res.ok.inj h).symm, ?_⟩
  rw [he]
  unfold asKind theSchema at hs
  cases e' <;> simp_all

/-- An element that is a schema is made from levels; one that is an envelope has one inside. -/
private theorem elementOf_kind {rec : Option Node → Res Element} {id : Nat} {ps : List Node} {e : Element}
    (h : elementOf rec id ps = .ok e) :
    (∀ s, e = .schema s → ∃ ls, s = Schema.make ls) ∧ ∀ s o, e = .envelope s o → ∃ m, rec m = .ok (.schema s) := by
  have skip : (∀ s, e ≠ .schema s) → (∀ s o, e ≠ .envelope s o) →
      (∀ s, e = .schema s → ∃ ls, s = Schema.make ls) ∧ ∀ s o, e = .envelope s o → ∃ m, rec m = .ok (.schema s) :=
    fun h1 h2 => ⟨fun s hs => absurd hs (h1 s), fun s o hs => absurd hs (h2 s o)⟩
  unfold elementOf at h
  split at h
  · cases h
  split at h
  · obtain ⟨s, o, m, rfl, hm⟩ := envelopeOf_kind h
    refine ⟨fun s' hs' => (by cases hs'), fun s' o' hs' => ?_⟩
    cases hs'
    exact ⟨m, hm⟩
  split at h
  · obtain ⟨ls, rfl⟩ := schemaOf_make h
    refine ⟨fun s hs => ⟨ls, ?_⟩, fun s o hs => by cases hs⟩
    cases hs
    rfl
  split at h
  · rw [Res.bind_eq, Res.bind_eq_ok] at h
    obtain ⟨_, -, h⟩ := h
    cases Res.ok.inj h
    exact skip (fun s hs => by cases hs) (fun s o hs => by cases hs)
  split at h
  · obtain ⟨f, rfl⟩ := fieldOf_kind h
    exact skip (fun s hs => by cases hs) (fun s o hs => by cases hs)
  split at h
  · obtain ⟨f, rfl⟩ := compositeOf_kind h
    exact skip (fun s hs => by cases hs) (fun s o hs => by cases hs)
  split at h
  · obtain ⟨f, rfl⟩ := restrictedOf_kind h
    exact skip (fun s hs => by cases hs) (fun s o hs => by cases hs)
  split at h
  · rw [Res.bind_eq, Res.bind_eq_ok] at h
    obtain ⟨_, -, h⟩ := h
    cases Res.ok.inj h
    exact skip (fun s hs => by cases hs) (fun s o hs => by cases hs)
  split at h
  · cases h
    exact skip (fun s hs => by cases hs) (fun s o hs => by cases hs)
  · cases h

private theorem elementIn_schema {d : Nat} {n : Option Node} {s : Schema} (h : elementIn d n = .ok (.schema s)) :
    ∃ ls, s = Schema.make ls := by
  cases d with
  | zero => cases h
  | succ d =>
    rw [elementIn] at h
    simp only [Res.bind_eq, Res.bind_eq_ok] at h
    obtain ⟨ks, -, id, -, h⟩ := h
    exact (elementOf_kind h).1 s rfl

private theorem envelopeFrom_schema {n : Node} {s : Schema} {d : Str} (h : envelopeFrom n = .ok (s, d)) :
    ∃ ls, s = Schema.make ls := by
  unfold envelopeFrom at h
  split at h
  · rw [Res.bind_eq, Res.bind_eq_ok] at h
    obtain ⟨e, he, h⟩ := h
    split at h
    · cases Res.ok.inj h
      obtain ⟨m, hm⟩ := (elementOf_kind he).2 _ _ rfl
      exact elementIn_schema hm
    · cases h
  · cases h

/-! ### The payload -/

private theorem pos_enter_next {c : Cursor} {n : Node} (h : c.cur = some n) : Pos n.kids 1 c.enter.next.2.next.2 :=
  (is_next (ps := n.kids) (i := 0) _ (pos_enter h)).2 _ rfl

private theorem payload_is {lf : Bool} {F : Factory} {s : Schema} {i : Nat} {n : Node} {c : Cursor} (hc : c.cur = some n)
    {r : Option Node → Res Str}
    (h : ∀ ps, Is (Pos ps 0) (dump (fun _ _ => publicKeyDump) lf F s (c.fuel + 1) i (some parsedName)) Val.dump
      (labelled (some parsedName) <$> r (nth ps 0)) (Pos ps 1)) :
    (dumpPayload (fun _ _ => publicKeyDump) lf F s i c).1 = (payloadIn n >>= fun p => r p >>= fun t =>
      pure ("{ Parsed : ".toList ++ t ++ " }".toList)) := by
  have hcu : ∀ (k : Nat) (s : Schema) n, Scoped ((fun _ _ => publicKeyDump : Customs) k s n) := fun _ _ => scoped_publicKeyDump
  have hsc : Scoped (do
        let v ← dump (fun _ _ => publicKeyDump) lf F s (c.fuel + 1) i (some parsedName)
        pure (v.dump ++ mapClose) : Prog Str) := scoped_bind (scoped_dump hcu _ _ _) fun _ => scoped_pure _
  have hs : Scoped (do
      attestList
      let n ← look Cursor.getList
      if n = 3 then
        autoEnter (do
          let v ← dump (fun _ _ => publicKeyDump) lf F s (c.fuel + 1) i (some parsedName)
          pure (v.dump ++ mapClose))
      else Prog.ub "assert" : Prog Str) :=
    scoped_guard_bind (scoped_attest _ _) guard_list fun _ => scopedOn_bind (scoped_look _).on fun n =>
      scopedOn_ite (scopedOn_autoEnter hsc) (scoped_ub _).on
  unfold dumpPayload
  rw [autoEnter_eq hs (by rw [hc]; rfl)]
  simp only [if_true]
  have key : Is (Pos n.kids 1) (do
      attestList
      let n ← look Cursor.getList
      if n = 3 then
        autoEnter (do
          let v ← dump (fun _ _ => publicKeyDump) lf F s (c.fuel + 1) i (some parsedName)
          pure (v.dump ++ mapClose))
      else Prog.ub "assert" : Prog Str) id (listParts (nth n.kids 1) >>= fun ps =>
        if ps.length = 3 then (r (nth ps 0) >>= fun t => pure ("{ Parsed : ".toList ++ t ++ " }".toList)) else .ub "assert")
      (fun _ => True) := by
    refine is_bind is_attestList fun _ hl => ?_
    have hn := list_some hl
    generalize kidsOf (nth n.kids 1) = ps at hn
    refine is_bind (f := id) (r := .ok ps.length) (h := fun k => if k = 3 then
        (r (nth ps 0) >>= fun t => pure ("{ Parsed : ".toList ++ t ++ " }".toList)) else .ub "assert")
      (Q := Pos n.kids 1) (fun c hc => ⟨?_, fun _ _ => hc⟩) fun k _ => ?_
    · have : c.cur = some (.mk .list ps) := hc.1.trans hn
      simp [look, Cursor.getList, this]
    · dsimp only [id]
      by_cases h3 : k = 3
      · rw [if_pos h3, if_pos h3]
        refine (is_enter (Q := fun _ => True) hn hsc ?_).post fun _ _ => trivial
        refine (is_bind (h := fun t => .ok (t ++ mapClose)) (h ps) fun v _ =>
          (is_pure id (v.dump ++ mapClose)).post fun _ _ => trivial).eq ?_
        have e1 : parsedName ++ " : ".toList = "{ Parsed : ".toList := by decide +kernel
        have e2 : mapClose = " }".toList := by decide +kernel
        rw [e2, ← e1]
        cases r (nth ps 0) <;> rfl
      · rw [if_neg h3, if_neg h3]
        exact is_ub _ _
  have := (key _ (pos_enter_next hc)).1
  rw [show ∀ x : Res Str, (id <$> x) = x from fun x => by cases x <;> rfl] at this
  rw [this]
  unfold payloadIn
  cases listParts (nth n.kids 1) with
  | throw m => rfl
  | ub m => rfl
  | ok ps =>
    simp only [Res.bind_eq, Res.bind]
    split <;> rfl

/-! ### One blob with a factory in any state -/

/-- Whatever the factory remembers, inspecting a blob has the outcome described in the specification, and unless that is
undefined the factory remembers what the specification says. -/
theorem contents_any (leftFirst : Bool) {F : Factory} {M : Memory} (hF : Tabled F M) (c : Cursor) (n : Node)
    (hc : c.cur = some n) :
    (dumpContents (fun _ _ => publicKeyDump) leftFirst F c).1.1 = (inspectionIn leftFirst M n).1 ∧
      ((∀ w, (inspectionIn leftFirst M n).1 ≠ .ub w) →
        Tabled (dumpContents (fun _ _ => publicKeyDump) leftFirst F c).2 (inspectionIn leftFirst M n).2) := by
  have hE := C89_any c n hc
  have hE2 := C26_envelope_cursor c
  unfold dumpContents inspectionIn
  rcases hr : readEnvelope c with ⟨r, c'⟩
  rw [hr] at hE hE2
  simp only at hE hE2
  subst hE2
  rw [← hE]
  cases r with
  | throw m => exact ⟨rfl, fun _ => hF⟩
  | ub m => exact ⟨rfl, fun h => absurd rfl (h m)⟩
  | ok x =>
    obtain ⟨s, d⟩ := x
    obtain ⟨ls, rfl⟩ := envelopeFrom_schema hE.symm
    have h := runs_all leftFirst ls.flatten hF
    simp only [process, schema_make_types]
    rcases hT : studyAll leftFirst ls.flatten M with ⟨r, M'⟩
    rw [hT] at h
    cases r with
    | throw m => obtain ⟨F', h1, h2⟩ := h; simp only [h1]; exact ⟨trivial, fun _ => h2⟩
    | ub m => obtain ⟨F', h1⟩ := h; simp only [h1]; exact ⟨trivial, fun h => absurd rfl (h m)⟩
    | ok u =>
      obtain ⟨a, F', h1, h2⟩ := h
      simp only [h1]
      have h3 := h2.named d
      unfold shownWith
      cases hf : M'.descs.lookup d with
      | none =>
        rw [hf] at h3
        have h3 : F'.byDesc.lookup d = none := h3
        simp only [Factory.findDesc, h3, Option.join]
        exact ⟨rfl, fun h => absurd rfl (h "assert")⟩
      | some name =>
        rw [hf] at h3
        obtain ⟨i, hi, hlook⟩ := h3
        simp only [Factory.findDesc, hlook, Option.join, Option.bind_some, id]
        refine ⟨?_, fun _ => h2⟩
        have hfit : Fitted F' (Schema.make ls) ls.flatten M'.table := ⟨⟨M', h2, rfl⟩, fun d => by
          rw [(C16_lookup ls d).2]
          unfold typeWith
          have : (fun t : TypeNotation => d == t.descriptor) = fun t => t.descriptor == d := by
            funext t; exact Bool.beq_comm
          rw [this]
          rfl⟩
        rw [payload_is (r := textIn leftFirst ls.flatten M'.table (c'.fuel + 1) true name) hc fun ps =>
          any_dump hfit (c'.fuel + 1) name i (some parsedName) ps 0 hi]
        unfold payloadIn
        cases hp : listParts (nth n.kids 1) with
        | throw m => rfl
        | ub m => rfl
        | ok ps =>
          simp only [Res.bind_eq, Res.bind]
          by_cases h3' : ps.length = 3
          · simp only [if_pos h3']
            have hdep : textIn leftFirst ls.flatten M'.table (c'.fuel + 1) true name (nth ps 0) =
                textIn leftFirst ls.flatten M'.table (depthOf (nth ps 0)) true name (nth ps 0) := by
              refine textIn_depth _ _ _ _ _ ?_ (Nat.le_refl _)
              have h4 := list_some hp
              have h5 := depth_part (a := n.val) (j := 0) h4
              unfold Cursor.fuel
              rw [hc]
              cases n with
              | mk a ks =>
                simp only [Node.val, Node.kids] at h5
                dsimp only
                omega
            rw [hdep]
          · simp only [if_neg h3']

/-- **C93.** A program that inspects any blobs one after the other with one factory, and catches the exceptions, gets for each
what the specification says: the same text or the same exception, up to the same undefined behaviour. -/
theorem C93_session (leftFirst : Bool) (cs : List Cursor) (ns : List Node) (h : cs.map Cursor.cur = ns.map some) :
    inspectMany leftFirst (Factory.empty.installCustom 0 publicKeyType) cs = inspectionsIn leftFirst newMemory ns := by
  have key : ∀ (cs : List Cursor) (ns : List Node) (F : Factory) (M : Memory), cs.map Cursor.cur = ns.map some → Tabled F M →
      inspectMany leftFirst F cs = inspectionsIn leftFirst M ns := by
    intro cs
    induction cs with
    | nil => intro ns F M h hF; cases ns with
      | nil => rfl
      | cons n ns => cases h
    | cons c cs ih =>
      intro ns F M h hF
      cases ns with
      | nil => cases h
      | cons n ns =>
        simp only [List.map_cons, List.cons.injEq] at h
        obtain ⟨h1, h2⟩ := contents_any leftFirst hF c n h.1
        rw [inspectMany, inspectionsIn]
        rcases hx : dumpContents (fun _ _ => publicKeyDump) leftFirst F c with ⟨⟨r, c'⟩, F'⟩
        rcases hy : inspectionIn leftFirst M n with ⟨r', M'⟩
        rw [hx, hy] at h1 h2
        simp only at h1 h2
        subst h1
        cases r with
        | ub w => rfl
        | ok s =>
          simp only
          rw [ih ns F' M' h.2 (h2 (fun w hw => by cases hw))]
        | throw m =>
          simp only
          rw [ih ns F' M' h.2 (h2 (fun w hw => by cases hw))]
  exact key cs ns _ _ h tabled_inspector

/-! ### The first blob -/

/-- A step does to a memory in which nothing is in vain what the function does to its table. -/
private def Alike (a : Step) (g : Table → Res Table) : Prop := ∀ M : Memory, M.vain = [] →
  match g M.table with
  | .ok T => a M = (.ok (), { M with table := T })
  | .throw m => (a M).1 = .throw m
  | .ub w => (a M).1 = .ub w

private theorem Alike.then {a b : Step} {g h : Table → Res Table} (ha : Alike a g) (hb : Alike b h) :
    Alike (a.then b) (fun T => g T >>= h) := by
  intro M hM
  have h1 := ha M hM
  simp only [Res.bind_eq]
  cases hg : g M.table with
  | throw m =>
    rw [hg] at h1
    simp only [Res.bind]
    rcases hr : a M with ⟨r, M'⟩
    rw [hr] at h1
    simp only at h1
    subst h1
    simp [Step.then, hr]
  | ub m =>
    rw [hg] at h1
    simp only [Res.bind]
    rcases hr : a M with ⟨r, M'⟩
    rw [hr] at h1
    simp only at h1
    subst h1
    simp [Step.then, hr]
  | ok T =>
    rw [hg] at h1
    have h2 := hb { M with table := T } hM
    simp only [Res.bind]
    have e : (a.then b) M = b { M with table := T } := by simp [Step.then, h1]
    rw [e]
    exact h2

private theorem alike_done : Alike done .ok := fun _ _ => rfl

private theorem alike_prim (t : Str) : Alike (usePrimitive t) (fun T => needPrimitive T t) := by
  intro M hM
  unfold needPrimitive usePrimitive
  cases h : M.table.lookup t with
  | some w => simp only [h]
  | none =>
    simp only [h, hM, List.not_mem_nil, if_false]
    cases hp : primNamed t <;> simp only

private theorem alike_known (t : Str) (m : String) : Alike (useKnown t m) (fun T => needKnown T t m) := by
  intro M hM
  unfold needKnown useKnown
  cases h : M.table.lookup t <;> simp only [h]

private theorem alike_element (t : Str) : Alike (useElement t) (fun T => needElement T t) := by
  unfold useElement needElement
  by_cases h : t ∈ primitiveNames
  · simp only [if_pos h]; exact alike_prim t
  · simp only [if_neg h]; exact alike_known t _

private theorem alike_field (self : Str) (f : Field) : Alike (useField self f) (fun T => needField self T f) := by
  intro M hM
  unfold useField needField
  cases fieldTypeName f with
  | none => rfl
  | some t =>
    simp only
    cases f.kind <;> simp only
    case primitive => exact alike_prim t M hM
    case custom => exact alike_known t _ M hM
    all_goals
      by_cases h : t = self
      · simp only [if_pos h]
      · simp only [if_neg h]; exact alike_known t _ M hM

private theorem alike_fields (self : Str) (fs : List Field) : Alike (useFields self fs) (fun T => needFields self T fs) := by
  induction fs with
  | nil => exact alike_done
  | cons f fs ih => exact (alike_field self f).then ih

private theorem alike_type (lf : Bool) (t : TypeNotation) : Alike (useType lf t) (fun T => needType lf T t) := by
  cases t with
  | comp c => exact alike_fields c.name c.fields
  | restr r =>
    unfold useType needType
    cases hk : r.kind with
    | enum cs => simp only [hk]; exact alike_done
    | list l => simp only [hk]; exact alike_element l
    | array l => simp only [hk]; exact alike_element l
    | map k v =>
      simp only [hk]
      cases lf with
      | true => exact (alike_element k).then (alike_element v)
      | false => exact (alike_element v).then (alike_element k)

private theorem alike_learn (lf : Bool) (t : TypeNotation) : Alike (study lf t) (fun T => learn lf T t) := by
  intro M hM
  unfold study learn
  have : Alike (enterType t) (fun T => .ok ((t.name, .type t) :: T)) := fun _ _ => rfl
  have h2 := ((alike_type lf t).then this) M hM
  cases h : M.table.lookup t.name with
  | some w => simp only [h]
  | none =>
    have hv : t.name ∉ M.vain := by rw [hM]; simp
    simp only [h, if_neg hv]
    exact h2

/-- What is learnt from some types if nothing was in vain. -/
theorem study_learn (lf : Bool) (ts : List TypeNotation) (M : Memory) (hM : M.vain = []) :
    match learnAll lf M.table ts with
    | .ok T => ∃ ds, studyAll lf ts M = (.ok (), ⟨T, [], ds⟩)
    | .throw m => (studyAll lf ts M).1 = .throw m
    | .ub w => (studyAll lf ts M).1 = .ub w := by
  induction ts generalizing M with
  | nil => exact ⟨M.descs, by rw [studyAll]; cases M; cases hM; rfl⟩
  | cons t ts ih =>
    have h1 := alike_learn lf t M hM
    simp only at h1
    rw [learnAll, Res.bind_eq]
    cases hg : learn lf M.table t with
    | throw m =>
      rw [hg] at h1
      rcases hr : study lf t M with ⟨r, M'⟩
      rw [hr] at h1
      simp only at h1
      subst h1
      simp [studyAll, Step.then, hr, Res.bind]
    | ub m =>
      rw [hg] at h1
      rcases hr : study lf t M with ⟨r, M'⟩
      rw [hr] at h1
      simp only at h1
      subst h1
      simp [studyAll, Step.then, hr, Res.bind]
    | ok T =>
      rw [hg] at h1
      have h2 := ih ⟨T, M.vain, (t.descriptor, t.name) :: M.descs⟩ hM
      have e : studyAll lf (t :: ts) M = studyAll lf ts ⟨T, M.vain, (t.descriptor, t.name) :: M.descs⟩ := by
        simp [studyAll, Step.then, h1, enterDescriptor]
      rw [e]
      exact h2

private theorem lookup_types (ts : List TypeNotation) (d : Str) :
    ((ts.map fun (t : TypeNotation) => (t.descriptor, t.name)) ++ []).lookup d = (ts.find? fun u => u.descriptor == d).map TypeNotation.name := by
  induction ts with
  | nil => rfl
  | cons t ts ih =>
    simp only [List.map_cons, List.cons_append, lookup_cons_if, List.find?_cons]
    by_cases e : d = t.descriptor
    · have : (t.descriptor == d) = true := by simp [e]
      simp only [if_pos e, this]
      rfl
    · have : (t.descriptor == d) = false := by simpa using fun x => e x.symm
      simp only [if_neg e, this]
      exact ih

/-- **C93, the first blob**: nothing is remembered, so it is inspected as the specification says that blobs are. -/
theorem C93_first (leftFirst : Bool) (n : Node) : (inspectionIn leftFirst newMemory n).1 = inspectionOf leftFirst n := by
  unfold inspectionIn inspectionOf
  cases envelopeFrom n with
  | throw m => rfl
  | ub m => rfl
  | ok x =>
    obtain ⟨s, d⟩ := x
    simp only [Res.bind_eq, Res.bind]
    have h := study_learn leftFirst s.types.flatten newMemory rfl
    have e : newMemory.table = onlyKeys := rfl
    rw [e] at h
    cases hl : learnAll leftFirst onlyKeys s.types.flatten with
    | throw m =>
      rw [hl] at h
      rcases hr : studyAll leftFirst s.types.flatten newMemory with ⟨r, M'⟩
      rw [hr] at h
      simp only at h
      subst h
      rfl
    | ub m =>
      rw [hl] at h
      rcases hr : studyAll leftFirst s.types.flatten newMemory with ⟨r, M'⟩
      rw [hr] at h
      simp only at h
      subst h
      rfl
    | ok T =>
      rw [hl] at h
      obtain ⟨ds, h⟩ := h
      have hd := studyAll_descs h
      simp only at hd
      rw [h]
      simp only [shownWith, hd]
      rw [show newMemory.descs = [] from rfl, lookup_types]
      cases s.types.flatten.reverse.find? (fun u => u.descriptor == d) <;> rfl

/-! ### Later blobs -/

private theorem closed_new : Closed newMemory := by
  have key : ∀ k t, newMemory.table.lookup k ≠ some (.type t) := by
    intro k t h
    unfold newMemory onlyKeys at h
    simp only [lookup_cons_if] at h
    split at h <;> cases h
  exact ⟨fun k t h => absurd h (key k t), fun k t h => absurd h (key k t), fun k h => (by cases h), fun e h => (by cases h)⟩

private theorem inspectionIn_closed {lf : Bool} {M : Memory} {n : Node} (h : Closed M) : Closed (inspectionIn lf M n).2 := by
  unfold inspectionIn
  cases envelopeFrom n with
  | throw m => exact h
  | ub m => exact h
  | ok x =>
    obtain ⟨s, d⟩ := x
    simp only
    rcases hr : studyAll lf s.types.flatten M with ⟨r, M'⟩
    have := (studyAll_any hr).closed h
    cases r <;> exact this

private theorem inspectionIn_less {lf : Bool} {M : Memory} {n : Node} : Less M.table (inspectionIn lf M n).2.table := by
  unfold inspectionIn
  cases envelopeFrom n with
  | throw m => exact Less.refl _
  | ub m => exact Less.refl _
  | ok x =>
    obtain ⟨s, d⟩ := x
    simp only
    rcases hr : studyAll lf s.types.flatten M with ⟨r, M'⟩
    have := (studyAll_any hr).less
    cases r <;> exact this

private theorem remembered_closed (lf : Bool) (ns : List Node) : Closed (remembered lf ns) := by
  unfold remembered
  generalize hM : newMemory = M
  have hc : Closed M := hM ▸ closed_new
  clear hM
  induction ns generalizing M with
  | nil => exact hc
  | cons n ns ih => exact ih _ (inspectionIn_closed hc)

private theorem lookup_append_of {α β : Type} [BEq α] (a b : List (α × β)) (d : α) :
    (a ++ b).lookup d = (a.lookup d).or (b.lookup d) := by
  induction a with
  | nil => simp
  | cons x a ih =>
    obtain ⟨k, v⟩ := x
    simp only [List.cons_append, List.lookup_cons]
    split
    · rfl
    · exact ih

private theorem lookup_mem' {β : Type} {a : List (Str × β)} {d : Str} {k : β} (h : a.lookup d = some k) : (d, k) ∈ a := by
  induction a with
  | nil => cases h
  | cons x a ih =>
    obtain ⟨b, c⟩ := x
    rw [lookup_cons_if] at h
    split at h
    · rename_i e; subst e; cases h; exact List.mem_cons_self
    · exact List.mem_cons_of_mem _ (ih h)

/-- What can be inspected with one memory gives the same with one that knows more and does not contradict. -/
private theorem inspection_sim {lf : Bool} {M M' N : Memory} {n : Node} {s : Str} (hM : Closed M) (hN : Closed N)
    (h : inspectionIn lf M n = (.ok s, M')) (hl : Less M.table N.table)
    (hd : ∀ sc d, envelopeFrom n = .ok (sc, d) →
      (sc.types.flatten.reverse.map fun t => (t.descriptor, t.name)).lookup d = none → ∀ k, M.descs.lookup d = some k →
      N.descs.lookup d = some k)
    (ha : Agrees M'.table N) : (inspectionIn lf N n).1 = .ok s := by
  unfold inspectionIn at h ⊢
  cases he : envelopeFrom n with
  | throw m => rw [he] at h; cases h
  | ub m => rw [he] at h; cases h
  | ok x =>
    obtain ⟨sc, d⟩ := x
    rw [he] at h
    simp only at h ⊢
    rcases hr : studyAll lf sc.types.flatten M with ⟨r, M1⟩
    rw [hr] at h
    cases r with
    | throw m => cases h
    | ub m => cases h
    | ok u =>
      simp only [Prod.mk.injEq] at h
      obtain ⟨h1, rfl⟩ := h
      obtain ⟨N', g1, g2⟩ := studyAll_sim hr (Less.refl _) hl ha hN
      rw [g1]
      simp only
      have e1 := studyAll_descs hr
      have e2 := studyAll_descs g1
      have hc := (studyAll_any hr).closed hM
      unfold shownWith at h1 ⊢
      cases hk : M1.descs.lookup d with
      | none => rw [hk] at h1; cases h1
      | some k =>
        have hk' : N'.descs.lookup d = some k := by
          rw [e1, lookup_append_of] at hk
          rw [e2, lookup_append_of]
          cases hx : (sc.types.flatten.reverse.map fun t => (t.descriptor, t.name)).lookup d with
          | some k' => rw [hx] at hk; exact hk
          | none => rw [hx] at hk; exact hd sc d he hx k hk
        rw [hk] at h1
        rw [hk']
        simp only at h1 ⊢
        rw [← h1]
        cases payloadIn n with
        | throw m => rfl
        | ub m => rfl
        | ok p =>
          simp only [Res.bind_eq, Res.bind]
          rw [textIn_less g2 hc _ _ _ _ (hc.descs _ (lookup_mem' hk))]

/-- **C93, what does not matter.** A blob that a new factory shows is shown the same by one that has seen any other blobs, if what
the factory has learnt from those does not contradict it: no type the blob knows of was missing before, and those known
before are the same. -/
theorem C93_unharmed (leftFirst : Bool) (ns : List Node) (n : Node) (s : Str) (h : inspectionOf leftFirst n = .ok s)
    (ha : Agrees (inspectionIn leftFirst newMemory n).2.table (remembered leftFirst ns)) :
    (inspectionIn leftFirst (remembered leftFirst ns) n).1 = .ok s := by
  rw [← C93_first] at h
  refine inspection_sim closed_new (remembered_closed _ _) (Prod.ext h rfl) ?_ (fun _ d _ _ k hk => by cases hk) ha
  have key : ∀ (ns : List Node) (M : Memory), Less newMemory.table M.table →
      Less newMemory.table (ns.foldl (fun M n => (inspectionIn leftFirst M n).2) M).table := by
    intro ns
    induction ns with
    | nil => intro M h; exact h
    | cons n ns ih => intro M h; exact ih _ (h.trans inspectionIn_less)
  exact key ns newMemory (Less.refl _)

/-- **C93, repeatable**: whatever the factory has seen, a blob that it shows it shows again. -/
theorem C93_again (leftFirst : Bool) (ns : List Node) (n : Node) (s : Str)
    (h : (inspectionIn leftFirst (remembered leftFirst ns) n).1 = .ok s) :
    (inspectionIn leftFirst (remembered leftFirst (ns ++ [n])) n).1 = .ok s := by
  have e : remembered leftFirst (ns ++ [n]) = (inspectionIn leftFirst (remembered leftFirst ns) n).2 := by
    unfold remembered
    rw [List.foldl_append]
    rfl
  have hc := remembered_closed leftFirst (ns ++ [n])
  have hr := remembered_closed leftFirst ns
  rw [e] at hc ⊢
  refine inspection_sim hr hc (Prod.ext h rfl) inspectionIn_less (fun sc d he hx k hk => ?_) (fun k w hw => ⟨fun hv => ?_, .inr hw⟩)
  · unfold inspectionIn at h ⊢
    rw [he] at h ⊢
    simp only at h ⊢
    rcases hs : studyAll leftFirst sc.types.flatten (remembered leftFirst ns) with ⟨r, M'⟩
    rw [hs] at h
    cases r with
    | throw m => cases h
    | ub m => cases h
    | ok u => simp only; rw [studyAll_descs hs, lookup_append_of, hx]; exact hk
  · rw [hc.vain k hv] at hw
    cases hw

/-! ### What does matter -/

private def cls (name fp : String) (fs : List (String × String)) : Node :=
  compositeTree name.toList [] [] fp.toList (fs.map fun f => fieldTree f.1.toList f.2.toList [] [] [] true false)
private def obj (fp : String) (vs : List Node) : Node := described fp.toList (.mk .list vs)
private def num (k : Int) : Node := .mk (.int k) []
private def blob (types : List Node) (payload : Node) : Node := envelopeTree payload (schemaTree types) (.mk .null [])

/-- A blob whose class needs a class that its schema does not have; one that has that class; another version of it; one without
its class. -/
private def incomplete : Node := blob [cls "A" "fa" [("b", "B")]] (obj "fa" [obj "fb" [num 1]])
private def complete : Node := blob [cls "B" "fb" [("n", "int")]] (obj "fb" [num 2])
private def newer : Node := blob [cls "B" "fc" [("s", "string")]] (obj "fc" [str "x".toList])
private def bare : Node := blob [cls "C" "fd" [("n", "int")]] (obj "fb" [num 3])

/-- A program that inspects these trees one after the other. -/
private def program (ns : List Node) : List (Res Str) :=
  inspectMany true (Factory.empty.installCustom 0 publicKeyType) (ns.map Cursor.root)

private theorem program_eq (ns : List Node) : program ns = inspectionsIn true newMemory ns :=
  C93_session true _ _ (by rw [List.map_map]; rfl)

/-- **C93, what a failure does**: after a blob that lacks a class, one that has it leads to undefined behaviour; before it, it is
shown, and the one that lacks it fails later, in its payload. -/
theorem C93_vain :
    program [incomplete, incomplete, complete, newer] = [.throw "Can't find", .throw "Can't find", .ub "assert"]
      ∧ program [complete, incomplete, complete]
        = [.ok "{ Parsed : { n : 2 } }".toList, .throw "ARSE", .ok "{ Parsed : { n : 2 } }".toList] := by
  simp only [program_eq]; decide +kernel

/-- **C93, what an older class does**: if two blobs have different classes of one name, the second is read as the first says, and a text
is shown as zero; the other way round as an exception. -/
theorem C93_stale :
    program [complete, newer] = [.ok "{ Parsed : { n : 2 } }".toList, .ok "{ Parsed : { s : 0 } }".toList]
      ∧ program [newer, complete] = [.ok "{ Parsed : { s : \"x\" } }".toList, .throw "Expected a String but found"] := by
  simp only [program_eq]; decide +kernel

/-- **C93, what an older descriptor does**: a payload of a class that is not in its own schema is an assertion that fails with a new
factory; with one that has seen the class it is an exception. -/
theorem C93_bare :
    program [bare] = [.ub "assert"]
      ∧ program [complete, bare, complete]
        = [.ok "{ Parsed : { n : 2 } }".toList, .throw "ARSE", .ok "{ Parsed : { n : 2 } }".toList] := by
  simp only [program_eq]; decide +kernel

private theorem agrees_of (T : Table) (M : Memory)
    (h : ∀ x ∈ T, x.1 ∉ M.vain ∧ (M.table.lookup x.1 = none ∨ M.table.lookup x.1 = some x.2)) : Agrees T M :=
  fun k w hk => h (k, w) (lookup_mem' hk)

/-- A blob of two classes after one that fails in its payload and one of another class. -/
private def both : Node :=
  blob [cls "A" "fa" [("b", "B")], cls "B" "fb" [("n", "int")]] (obj "fa" [obj "fb" [num 4]])

example : (inspectionIn true (remembered true [complete, bare]) both).1 = .ok "{ Parsed : { b : { n : 4 } } }".toList :=
  C93_unharmed true [complete, bare] both _ (by decide +kernel) (agrees_of _ _ (by decide +kernel))

example : program [both, bare, both, complete] = [.ok "{ Parsed : { b : { n : 4 } } }".toList, .throw "ARSE",
    .ok "{ Parsed : { b : { n : 4 } } }".toList, .ok "{ Parsed : { n : 2 } }".toList] := by
  simp only [program_eq]; decide +kernel

#print axioms C93_session
#print axioms C93_first
#print axioms C93_unharmed
#print axioms C93_again
#print axioms C93_vain
#print axioms C93_stale
#print axioms C93_bare

end Corda.Props
