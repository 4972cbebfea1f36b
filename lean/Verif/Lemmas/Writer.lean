import Verif.Lemmas.Tree
import Verif.Spec.Writer
import Verif.Props.Descriptors

/-
Serialisation as a sequence of registrations and property descriptions, next to the nodes it adds.
-/

namespace Corda
open Wr Spec

/-- What happens to `m_schemas`. -/
inductive Event where
  | reg (key : Str × Str) (b : Blob)
  | prop (key : Str × Str) (name : Str) (desc : List Node)
  | trace (prints : Bool)

abbrev Schemas := List ((Str × Str) × Blob)

def runEvent (m : Schemas) : Event → Res Schemas
  | .reg key b =>
    match m.lookup key with
    | some _ => .ok m
    | none => .ok (mapPut keyLt key b m)
  | .prop key name desc =>
    match m.lookup key with
    | none => .ub "assert"
    | some (.list _) => .throw "bad_cast"
    | some (.comp fields) =>
      match fields.lookup name with
      | some _ => .ok m
      | none => .ok (mapSet key (.comp (mapPut strLt name desc fields)) m)
  | .trace prints => if prints then .ok m else .ub "char pointer"

def runEvents (m : Schemas) : List Event → Res Schemas
  | [] => .ok m
  | e :: es => (runEvent m e).bind fun m' => runEvents m' es

theorem runEvents_append (m : Schemas) (as bs : List Event) :
    runEvents m (as ++ bs) = (runEvents m as).bind fun m' => runEvents m' bs := by
  induction as generalizing m with
  | nil => rfl
  | cons a as ih =>
    simp only [List.cons_append, runEvents]
    cases runEvent m a with
    | ok m' => exact ih m'
    | throw m => rfl
    | ub m => rfl

/-- The step does these events and adds these nodes; if it throws it has added some nodes. -/
def Does (p : Wr) (es : List Event) (ns : List Node) : Prop :=
  ∀ s : WState, s.payload.rest = [] →
    match runEvents s.schemas es with
    | .ok m => p s = (.ok (), ⟨s.payload.append ns, m⟩)
    | .throw e => ∃ ms m, p s = (.throw e, ⟨s.payload.append ms, m⟩)
    | .ub w => (p s).1 = .ub w

/-- The same for a step that adds exactly one node, even when it throws. -/
def DoesOne (p : Wr) (es : List Event) (n : Node) : Prop :=
  ∀ s : WState, s.payload.rest = [] →
    match runEvents s.schemas es with
    | .ok m => p s = (.ok (), ⟨s.payload.append [n], m⟩)
    | .throw e => ∃ n' m, p s = (.throw e, ⟨s.payload.append [n'], m⟩)
    | .ub w => (p s).1 = .ub w

theorem DoesOne.does {p : Wr} {es : List Event} {n : Node} (h : DoesOne p es n) : Does p es [n] := by
  intro s hs
  have := h s hs
  cases hr : runEvents s.schemas es with
  | ok m => rw [hr] at this; exact this
  | throw e => rw [hr] at this; obtain ⟨n', m, h⟩ := this; exact ⟨[n'], m, h⟩
  | ub w => rw [hr] at this; exact this

theorem does_skip : Does skip [] [] := fun _ _ => rfl

theorem does_put (v : Atom) : Does (data (Cursor.put v)) [] [.mk v []] := fun _ _ => rfl

theorem does_trace (prints : Bool) : Does (trace prints) [.trace prints] [] := by
  intro s _
  cases prints <;> rfl

theorem does_property (key : Str × Str) (name : Str) (desc : List Node) :
    Does (property key name desc) [.prop key name desc] [] := by
  intro s _
  simp only [runEvents, runEvent, property]
  cases s.schemas.lookup key with
  | none => rfl
  | some b =>
    cases b with
    | list src => exact ⟨[], s.schemas, rfl⟩
    | comp fields =>
      cases h : fields.lookup name <;> simp [h, Res.bind, Cursor.append]

theorem does_seq {p q : Wr} {e1 e2 : List Event} {n1 n2 : List Node} (hp : Does p e1 n1) (hq : Does q e2 n2) :
    Does (seq p q) (e1 ++ e2) (n1 ++ n2) := by
  intro s hs
  have h1 := hp s hs
  rw [runEvents_append]
  unfold seq
  cases hr : runEvents s.schemas e1 with
  | ok m =>
    rw [hr] at h1
    simp only at h1
    rw [h1]
    have h2 := hq ⟨s.payload.append n1, m⟩ (Cursor.append_rest _ _ hs)
    simp only [Res.bind]
    cases hr2 : runEvents m e2 with
    | ok m2 => rw [hr2] at h2; simp only at h2; rw [h2, Cursor.append_append]
    | throw e =>
      rw [hr2] at h2
      obtain ⟨ms, m2, h2⟩ := h2
      exact ⟨n1 ++ ms, m2, by rw [h2, Cursor.append_append]⟩
    | ub w => rw [hr2] at h2; exact h2
  | throw e =>
    rw [hr] at h1
    obtain ⟨ms, m, h1⟩ := h1
    simp only [Res.bind]
    rw [h1]
    exact ⟨ms, m, rfl⟩
  | ub w =>
    rw [hr] at h1
    simp only [Res.bind]
    generalize p s = r at h1
    obtain ⟨a, b⟩ := r
    simp only at h1
    subst h1
    rfl

/-- Writing between the `start` and the `stop` of an object. -/
theorem doesOne_guarded {body : Wr} {es : List Event} {ns : List Node} (key : Str × Str) (b : Blob) (v : Atom)
    (hb : Does body es ns) :
    DoesOne (guarded (seq (register key b) (seq (startSerializable key.2)
        (seq (data (Cursor.put v)) (data Cursor.enter)))) body stop)
      (.reg key b :: es) (describedNode key.2 v ns) := by
  intro s hs
  obtain ⟨⟨p, cu, r, u⟩, m0⟩ := s
  simp only at hs
  subst hs
  have key1 : ∃ m1, runEvent m0 (.reg key b) = .ok m1
      ∧ (seq (register key b) (seq (startSerializable key.2) (seq (data (Cursor.put v)) (data Cursor.enter))))
          ⟨⟨p, cu, [], u⟩, m0⟩
        = (.ok (), ⟨⟨[], none, [], ([.mk (.symbol key.2) []], v, []) :: (cu.toList ++ p, .described, []) :: u⟩, m1⟩) := by
    simp only [runEvent, seq, register, startSerializable, data]
    cases m0.lookup key <;> exact ⟨_, rfl, rfl⟩
  obtain ⟨m1, hm1, hstart⟩ := key1
  have close : ∀ (ms : List Node) (m : Schemas),
      stop ((⟨[], none, [], ([.mk (.symbol key.2) []], v, []) :: (cu.toList ++ p, .described, []) :: u⟩ : Cursor).append ms)
        = (⟨p, cu, [], u⟩ : Cursor).append [describedNode key.2 v ms] := by
    intro ms m
    unfold stop
    have h1 := Cursor.append_level ms
      ⟨[], none, [], ([.mk (.symbol key.2) []], v, []) :: (cu.toList ++ p, .described, []) :: u⟩ rfl
    have h2 := Cursor.append_up ms
      ⟨[], none, [], ([.mk (.symbol key.2) []], v, []) :: (cu.toList ++ p, .described, []) :: u⟩
    simp only [Cursor.exit, h2, h1]
    simp [Cursor.level, Cursor.append, describedNode]
  unfold guarded
  rw [hstart]
  simp only [runEvents, hm1, Res.bind]
  have h2 := hb ⟨⟨[], none, [], ([.mk (.symbol key.2) []], v, []) :: (cu.toList ++ p, .described, []) :: u⟩, m1⟩ rfl
  cases hr : runEvents m1 es with
  | ok m =>
    rw [hr] at h2
    simp only at h2
    simp only [h2]
    rw [close ns m]
  | throw e =>
    rw [hr] at h2
    obtain ⟨ms, m, h2⟩ := h2
    simp only [h2]
    exact ⟨_, m, by rw [close ms m]⟩
  | ub w =>
    rw [hr] at h2
    simp only at h2 ⊢
    exact h2

/-! The events of an object. -/

mutual

def objEvents : Obj → List Event
  | .comp n f ms => .reg (n, f) (.comp []) :: membersEvents (n, f) ms
  | .list n f es => .reg (n, f) (.list "list".toList) :: elemsEvents es
  | .map n f es => .reg (n, f) (.list "map".toList) :: entriesEvents es

def memberEvents (key : Str × Str) : Member → List Event
  | .prim n ptr v => [.trace (!ptr || v.pointerPrints), .prop key n (primDesc n v.type ptr)]
  | .nullPrim n t => [.trace t.nullPrints, .prop key n (primDesc n t true)]
  | .obj n t ptr o =>
    .prop key n (if !ptr && o.isContainer then restrictedDesc n t else compositeDesc n t) :: objEvents o
  | .nullObj n t => [.prop key n (compositeDesc n t), .prop key n (nullDesc n t)]

def elemEvents : Elem → List Event
  | .obj o => objEvents o
  | .prim _ => []
  | .nullPrim t => [.trace t.nullPrints]

def membersEvents (key : Str × Str) : List Member → List Event
  | [] => []
  | m :: ms => memberEvents key m ++ membersEvents key ms

def elemsEvents : List Elem → List Event
  | [] => []
  | e :: es => elemEvents e ++ elemsEvents es

def entriesEvents : List Entry → List Event
  | [] => []
  | .mk k v :: es => (elemEvents k ++ elemEvents v) ++ entriesEvents es

end

theorem primNode_eq (v : Prim) : primNode v = .mk v.atom [] := by cases v <;> rfl

mutual

theorem does_object : (o : Obj) → DoesOne (object o) (objEvents o) (objTree o)
  | .comp n f ms => by
    unfold object objEvents objTree
    exact doesOne_guarded (n, f) (.comp []) .list (does_members (n, f) ms)
  | .list n f es => by
    unfold object objEvents objTree
    exact doesOne_guarded (n, f) (.list "list".toList) .list (does_elems es)
  | .map n f es => by
    unfold object objEvents objTree
    exact doesOne_guarded (n, f) (.list "map".toList) .map (does_entries es)

theorem does_members (key : Str × Str) : (ms : List Member) →
    Does (members key ms) (membersEvents key ms) (memberTrees ms)
  | [] => by unfold members membersEvents memberTrees; exact does_skip
  | m :: ms => by
    unfold members membersEvents memberTrees
    exact does_seq (does_member key m) (does_members key ms)

theorem does_member (key : Str × Str) : (m : Member) → Does (member key m) (memberEvents key m) [memberTree m]
  | .prim n ptr v => by
    unfold member memberEvents memberTree
    rw [primNode_eq]
    exact does_seq (does_trace _) (does_seq (does_property _ _ _) (does_put _))
  | .nullPrim n t => by
    unfold member memberEvents memberTree
    exact does_seq (does_trace _) (does_seq (does_property _ _ _) (does_put _))
  | .obj n t ptr o => by
    unfold member memberEvents memberTree
    exact does_seq (does_property _ _ _) (does_object o).does
  | .nullObj n t => by
    unfold member memberEvents memberTree
    exact does_seq (does_property _ _ _) (does_seq (does_property _ _ _) (does_put _))

theorem does_elems : (es : List Elem) → Does (elems es) (elemsEvents es) (elemTrees es)
  | [] => by unfold elems elemsEvents elemTrees; exact does_skip
  | e :: es => by
    unfold elems elemsEvents elemTrees
    exact does_seq (does_elem e) (does_elems es)

theorem does_elem : (e : Elem) → Does (elem e) (elemEvents e) [elemTree e]
  | .prim v => by unfold elem elemEvents elemTree; rw [primNode_eq]; exact does_put _
  | .nullPrim t => by unfold elem elemEvents elemTree; exact does_seq (does_trace _) (does_put _)
  | .obj o => by unfold elem elemEvents elemTree; exact (does_object o).does

theorem does_entries : (es : List Entry) → Does (entries es) (entriesEvents es) (entryTrees es)
  | [] => by unfold entries entriesEvents entryTrees; exact does_skip
  | .mk k v :: es => by
    unfold entries entriesEvents entryTrees entry
    exact does_seq (does_seq (does_elem k) (does_elem v)) (does_entries es)

end


/-! Ordered maps. -/

theorem strLt_irrefl : ∀ a, strLt a a = false
  | [] => rfl
  | a :: as => by simp [strLt, strLt_irrefl as, UInt32.lt_irrefl]

theorem strLt_trans : ∀ a b c, strLt a b = true → strLt b c = true → strLt a c = true
  | [], [], _, h, _ => by simp [strLt] at h
  | [], _ :: _, [], _, h => by simp [strLt] at h
  | [], _ :: _, _ :: _, _, _ => rfl
  | _ :: _, [], _, h, _ => by simp [strLt] at h
  | _ :: _, _ :: _, [], _, h => by simp [strLt] at h
  | a :: as, b :: bs, c :: cs, h1, h2 => by
    have ih := strLt_trans as bs cs
    simp only [strLt] at h1 h2 ⊢
    generalize a.val = x at *
    generalize b.val = y at *
    generalize c.val = z at *
    simp only [UInt32.lt_iff_toNat_lt] at *
    grind

theorem strLt_total : ∀ a b, strLt a b = false → strLt b a = false → a = b
  | [], [], _, _ => rfl
  | [], _ :: _, h, _ => by simp [strLt] at h
  | _ :: _, [], _, h => by simp [strLt] at h
  | a :: as, b :: bs, h1, h2 => by
    have ih := strLt_total as bs
    simp only [strLt] at h1 h2
    have hv : a.val = b.val := by
      apply UInt32.toNat_inj.mp
      simp only [UInt32.lt_iff_toNat_lt] at h1 h2
      grind
    have : a = b := Char.ext hv
    subst this
    simp [UInt32.lt_irrefl] at h1 h2
    rw [ih h1 h2]

/-- What `std::map` needs of `operator<`. -/
structure StrictOrder {κ : Type} (lt : κ → κ → Bool) : Prop where
  irrefl : ∀ a, lt a a = false
  trans : ∀ a b c, lt a b = true → lt b c = true → lt a c = true
  total : ∀ a b, lt a b = false → lt b a = false → a = b

theorem strOrder : StrictOrder strLt := ⟨strLt_irrefl, strLt_trans, strLt_total⟩

theorem keyOrder : StrictOrder keyLt := by
  refine ⟨fun a => by simp [keyLt, strLt_irrefl], fun a b c => ?_, fun a b => ?_⟩
  · have t1 := strLt_trans a.1 b.1 c.1
    have t2 := strLt_trans a.2 b.2 c.2
    have t3 := strLt_trans b.1 c.1 a.1
    have t4 := strLt_trans c.1 a.1 b.1
    have t5 := strLt_total a.1 b.1
    have t6 := strLt_total b.1 c.1
    have t7 := strLt_irrefl a.1
    have t8 := strLt_irrefl b.1
    simp only [keyLt]
    grind
  · have t1 := strLt_total a.1 b.1
    have t2 := strLt_total a.2 b.2
    have t3 := strLt_irrefl a.1
    simp only [keyLt]
    intro h1 h2
    have e1 : a.1 = b.1 := by grind
    have e2 : a.2 = b.2 := by grind
    exact Prod.ext e1 e2

section
set_option linter.unusedSectionVars false
variable {κ ν : Type} [DecidableEq κ] [BEq κ] [LawfulBEq κ] {lt : κ → κ → Bool}

def SortedMap (lt : κ → κ → Bool) (m : List (κ × ν)) : Prop := m.Pairwise fun a b => lt a.1 b.1 = true

theorem lookup_none_iff (m : List (κ × ν)) (k : κ) : m.lookup k = none ↔ ∀ e ∈ m, e.1 ≠ k := by
  induction m with
  | nil => simp
  | cons e m ih =>
    obtain ⟨a, b⟩ := e
    by_cases h : k = a
    · subst h; simp [List.lookup]
    · have : (k == a) = false := by simpa using h
      simp only [List.lookup, this, ih, List.mem_cons, forall_eq_or_imp]
      grind

theorem lookup_mapPut (lt : κ → κ → Bool) (k : κ) (v : ν) (m : List (κ × ν)) (k' : κ) (hk : m.lookup k = none) :
    (mapPut lt k v m).lookup k' = if k' = k then some v else m.lookup k' := by
  induction m with
  | nil =>
    by_cases h : k' = k
    · simp [mapPut, List.lookup, h]
    · have : (k' == k) = false := by simpa using h
      simp [mapPut, List.lookup, h, this]
  | cons e m ih =>
    obtain ⟨a, b⟩ := e
    have hka : k ≠ a := by rintro rfl; simp [List.lookup] at hk
    have hk' : m.lookup k = none := by
      have : (k == a) = false := by simpa using hka
      simpa [List.lookup, this] using hk
    simp only [mapPut]
    by_cases hl : lt k a = true
    · simp only [hl, if_true]
      by_cases h : k' = k
      · simp [List.lookup, h]
      · have : (k' == k) = false := by simpa using h
        simp [List.lookup, this, h]
    · simp only [hl]
      by_cases h : k' = a
      · subst h; simp [List.lookup, Ne.symm hka]
      · have : (k' == a) = false := by simpa using h
        simpa [List.lookup, this] using ih hk'

theorem mem_mapPut (lt : κ → κ → Bool) (k : κ) (v : ν) (m : List (κ × ν)) (e : κ × ν) :
    e ∈ mapPut lt k v m ↔ e = (k, v) ∨ e ∈ m := by
  induction m with
  | nil => simp [mapPut]
  | cons a m ih =>
    simp only [mapPut]
    by_cases h : lt k a.1 = true <;> simp [h, ih] <;> grind

theorem sorted_mapPut (ho : StrictOrder lt) (k : κ) (v : ν) (m : List (κ × ν)) (hk : m.lookup k = none)
    (hm : SortedMap lt m) : SortedMap lt (mapPut lt k v m) := by
  induction m with
  | nil => simp [mapPut, SortedMap]
  | cons e m ih =>
    have hne := (lookup_none_iff (e :: m) k).1 hk
    simp only [SortedMap, List.pairwise_cons] at hm
    simp only [mapPut]
    by_cases hl : lt k e.1 = true
    · simp only [hl, if_true, SortedMap, List.pairwise_cons]
      refine ⟨?_, hm⟩
      intro x hx
      rcases List.mem_cons.1 hx with rfl | hx
      · exact hl
      · exact ho.trans _ _ _ hl (hm.1 x hx)
    · simp only [hl]
      have hek : lt e.1 k = true := by
        cases h2 : lt e.1 k with
        | true => rfl
        | false => exact absurd (ho.total _ _ h2 (by simpa using hl)) (hne e (by simp))
      have hk' : m.lookup k = none := (lookup_none_iff m k).2 fun x hx => hne x (by simp [hx])
      show SortedMap lt (e :: mapPut lt k v m)
      refine List.pairwise_cons.2 ⟨?_, ih hk' hm.2⟩
      intro x hx
      rcases (mem_mapPut lt k v m x).1 hx with rfl | hx
      · exact hek
      · exact hm.1 x hx

theorem lookup_mapSet (k : κ) (v : ν) (m : List (κ × ν)) (k' : κ) :
    (mapSet k v m).lookup k' = if k' = k then (m.lookup k).map (fun _ => v) else m.lookup k' := by
  induction m with
  | nil => simp [mapSet]
  | cons e m ih =>
    obtain ⟨a, b⟩ := e
    simp only [mapSet] at ih
    simp only [mapSet, List.map_cons]
    by_cases ha : a = k
    · subst ha
      by_cases h : k' = a
      · subst h; simp [List.lookup]
      · have : (k' == a) = false := by simpa using h
        simp only [List.lookup, this, if_true, ih, h, if_false]
    · have hka : (k == a) = false := by simpa using Ne.symm ha
      simp only [ha, if_false]
      by_cases h : k' = a
      · subst h; simp [List.lookup, ha]
      · have : (k' == a) = false := by simpa using h
        simp only [List.lookup, this, ih, hka]

theorem sorted_mapSet (k : κ) (v : ν) (m : List (κ × ν)) (hm : SortedMap lt m) : SortedMap lt (mapSet k v m) := by
  unfold SortedMap mapSet at *
  rw [List.pairwise_map]
  refine hm.imp ?_
  intro a b h
  have : ∀ e : κ × ν, (if e.1 = k then (e.1, v) else e).1 = e.1 := by intro e; split <;> rfl
  rw [this, this]; exact h

theorem lookup_of_mem (ho : StrictOrder lt) (m : List (κ × ν)) (hm : SortedMap lt m) (e : κ × ν) (he : e ∈ m) :
    m.lookup e.1 = some e.2 := by
  induction m with
  | nil => simp at he
  | cons a m ih =>
    obtain ⟨x, y⟩ := a
    simp only [SortedMap, List.pairwise_cons] at hm
    rcases List.mem_cons.1 he with rfl | he
    · simp [List.lookup]
    · have hlt := hm.1 e he
      have hne : e.1 ≠ x := by
        intro h; rw [h, ho.irrefl] at hlt; simp at hlt
      have : (e.1 == x) = false := by simpa using hne
      simpa [List.lookup, this] using ih hm.2 he

theorem mem_of_lookup (m : List (κ × ν)) (k : κ) (v : ν) (h : m.lookup k = some v) : (k, v) ∈ m := by
  induction m with
  | nil => simp at h
  | cons a m ih =>
    obtain ⟨x, y⟩ := a
    by_cases hx : k = x
    · subst hx; simp [List.lookup] at h; simp [h]
    · have : (k == x) = false := by simpa using hx
      simp only [List.lookup, this] at h
      simp [ih h]

theorem nodup_of_sorted {α : Type} (ho : StrictOrder lt) (f : α → κ) (m : List α)
    (hm : m.Pairwise fun a b => lt (f a) (f b) = true) : (m.map f).Nodup := by
  unfold List.Nodup
  rw [List.pairwise_map]
  refine hm.imp ?_
  intro a b h e
  rw [e, ho.irrefl] at h
  simp at h

end

/-! What the events leave in `m_schemas`. -/

def firstReg (k : Str × Str) (es : List Event) : Option Blob :=
  es.findSome? fun
    | .reg k' b => if k' = k then some b else none
    | .prop _ _ _ => none
    | .trace _ => none

def firstDesc (k : Str × Str) (n : Str) (es : List Event) : Option (List Node) :=
  es.findSome? fun
    | .reg _ _ => none
    | .prop k' n' d => if k' = k ∧ n' = n then some d else none
    | .trace _ => none

structure Tracks (es : List Event) (m : Schemas) : Prop where
  sorted : SortedMap keyLt m
  absent : ∀ k, firstReg k es = none → m.lookup k = none ∧ ∀ n, firstDesc k n es = none
  container : ∀ k src, firstReg k es = some (.list src) → m.lookup k = some (.list src) ∧ ∀ n, firstDesc k n es = none
  composite : ∀ k fs, firstReg k es = some (.comp fs) →
    ∃ fs', m.lookup k = some (.comp fs') ∧ SortedMap strLt fs' ∧ ∀ n, fs'.lookup n = firstDesc k n es

/-- Registrations are made with no fields. -/
def Plain : Event → Prop
  | .reg _ (.comp fs) => fs = []
  | _ => True

theorem tracks_nil : Tracks [] [] :=
  ⟨by simp [SortedMap], by simp [firstDesc], by simp [firstReg], by simp [firstReg]⟩

theorem firstReg_snoc (k : Str × Str) (es : List Event) (e : Event) :
    firstReg k (es ++ [e]) = (firstReg k es).or (firstReg k [e]) := by
  simp only [firstReg, List.findSome?_append]

theorem firstDesc_append (k : Str × Str) (n : Str) (es fs : List Event) :
    firstDesc k n (es ++ fs) = (firstDesc k n es).or (firstDesc k n fs) := by
  simp only [firstDesc, List.findSome?_append]

theorem firstReg_append (k : Str × Str) (es fs : List Event) :
    firstReg k (es ++ fs) = (firstReg k es).or (firstReg k fs) := by
  simp only [firstReg, List.findSome?_append]

theorem tracks_step {es : List Event} {m m' : Schemas} {e : Event} (ht : Tracks es m) (hp : Plain e)
    (hr : runEvent m e = .ok m') : Tracks (es ++ [e]) m' := by
  cases e with
  | trace prints =>
    have hd : ∀ k n, firstDesc k n (es ++ [.trace prints]) = firstDesc k n es := by
      intro k n; simp [firstDesc_append, firstDesc]
    have hfr : ∀ k, firstReg k (es ++ [.trace prints]) = firstReg k es := by
      intro k; simp [firstReg_append, firstReg]
    cases prints with
    | false => simp [runEvent] at hr
    | true =>
      simp only [runEvent, if_true, Res.ok.injEq] at hr
      subst hr
      exact ⟨ht.sorted, by simpa only [hfr, hd] using ht.absent, by simpa only [hfr, hd] using ht.container,
        by simpa only [hfr, hd] using ht.composite⟩
  | reg key b =>
    have hd : ∀ k n, firstDesc k n (es ++ [.reg key b]) = firstDesc k n es := by
      intro k n; simp [firstDesc_append, firstDesc]
    have hfr : ∀ k, firstReg k (es ++ [.reg key b]) = (firstReg k es).or (if key = k then some b else none) := by
      intro k
      rw [firstReg_append]
      congr 1
      by_cases h : key = k <;> simp [firstReg, h]
    simp only [runEvent] at hr
    cases hl : m.lookup key with
    | some x =>
      rw [hl] at hr
      simp only [Res.ok.injEq] at hr
      subst hr
      have hsome : firstReg key es ≠ none := by
        intro h; rw [(ht.absent key h).1] at hl; simp at hl
      have hfr' : ∀ k, firstReg k (es ++ [.reg key b]) = firstReg k es := by
        intro k
        rw [hfr]
        by_cases h : key = k
        · subst h
          cases h2 : firstReg key es with
          | none => exact absurd h2 hsome
          | some y => rfl
        · simp [h]
      exact ⟨ht.sorted, by simpa only [hfr', hd] using ht.absent, by simpa only [hfr', hd] using ht.container,
        by simpa only [hfr', hd] using ht.composite⟩
    | none =>
      rw [hl] at hr
      simp only [Res.ok.injEq] at hr
      subst hr
      have hnone : firstReg key es = none := by
        cases h : firstReg key es with
        | none => rfl
        | some y =>
          cases y with
          | list src => rw [(ht.container key src h).1] at hl; simp at hl
          | comp fs => obtain ⟨_, h2, _⟩ := ht.composite key fs h; rw [h2] at hl; simp at hl
      have hlk := fun k => lookup_mapPut keyLt key b m k hl
      refine ⟨sorted_mapPut keyOrder _ _ _ hl ht.sorted, ?_, ?_, ?_⟩
      · intro k hk
        rw [hfr] at hk
        have h1 : firstReg k es = none := by cases h : firstReg k es <;> simp_all
        have h2 : key ≠ k := by rintro rfl; simp [h1] at hk
        rw [hlk, if_neg (Ne.symm h2)]
        simpa only [hd] using ht.absent k h1
      · intro k src hk
        rw [hfr] at hk
        simp only [hd]
        rw [hlk]
        by_cases h : key = k
        · subst h
          rw [hnone] at hk
          simp at hk
          subst hk
          exact ⟨by simp, (ht.absent key hnone).2⟩
        · simp [h] at hk
          simpa [Ne.symm h] using ht.container k src hk
      · intro k fs hk
        rw [hfr] at hk
        simp only [hd]
        rw [hlk]
        by_cases h : key = k
        · subst h
          rw [hnone] at hk
          simp at hk
          subst hk
          simp only [Plain] at hp
          subst hp
          refine ⟨[], by simp, by simp [SortedMap], ?_⟩
          intro n
          rw [(ht.absent key hnone).2 n]
          rfl
        · simp [h] at hk
          simpa [Ne.symm h] using ht.composite k fs hk
  | prop key name desc =>
    have hfr : ∀ k, firstReg k (es ++ [.prop key name desc]) = firstReg k es := by
      intro k; simp [firstReg_append, firstReg]
    have hd : ∀ k n, firstDesc k n (es ++ [.prop key name desc])
        = (firstDesc k n es).or (if key = k ∧ name = n then some desc else none) := by
      intro k n
      rw [firstDesc_append]
      congr 1
      by_cases h : key = k ∧ name = n <;> simp [firstDesc, h]
    simp only [runEvent] at hr
    cases hl : m.lookup key with
    | none => rw [hl] at hr; simp at hr
    | some x =>
      cases x with
      | list src => rw [hl] at hr; simp at hr
      | comp fields =>
        rw [hl] at hr
        simp only at hr
        have hreg : ∃ fs, firstReg key es = some (.comp fs) := by
          cases h : firstReg key es with
          | none => rw [(ht.absent key h).1] at hl; simp at hl
          | some y =>
            cases y with
            | list src => rw [(ht.container key src h).1] at hl; simp at hl
            | comp fs => exact ⟨fs, rfl⟩
        obtain ⟨fs0, hreg⟩ := hreg
        obtain ⟨fs', h1, hso, hde⟩ := ht.composite key fs0 hreg
        rw [hl] at h1
        simp only [Option.some.injEq, Blob.comp.injEq] at h1
        subst h1
        have hd' : ∀ k n, k ≠ key → firstDesc k n (es ++ [.prop key name desc]) = firstDesc k n es := by
          intro k n h; rw [hd, if_neg (by rintro ⟨h1, _⟩; exact h h1.symm)]; simp
        cases hn : fields.lookup name with
        | some d =>
          rw [hn] at hr
          simp only [Res.ok.injEq] at hr
          subst hr
          have hd'' : ∀ k n, firstDesc k n (es ++ [.prop key name desc]) = firstDesc k n es := by
            intro k n
            by_cases h : key = k ∧ name = n
            · rw [hd, ← h.1, ← h.2, ← hde, hn]; rfl
            · rw [hd, if_neg h]; simp
          exact ⟨ht.sorted, by simpa only [hfr, hd''] using ht.absent, by simpa only [hfr, hd''] using ht.container,
            by simpa only [hfr, hd''] using ht.composite⟩
        | none =>
          rw [hn] at hr
          simp only [Res.ok.injEq] at hr
          subst hr
          refine ⟨sorted_mapSet _ _ _ ht.sorted, ?_, ?_, ?_⟩
          · intro k hk
            rw [hfr] at hk
            have hne : k ≠ key := by rintro rfl; rw [hreg] at hk; simp at hk
            rw [lookup_mapSet, if_neg hne]
            refine ⟨(ht.absent k hk).1, fun n => ?_⟩
            rw [hd' k n hne]; exact (ht.absent k hk).2 n
          · intro k src hk
            rw [hfr] at hk
            have hne : k ≠ key := by rintro rfl; rw [hreg] at hk; simp at hk
            rw [lookup_mapSet, if_neg hne]
            refine ⟨(ht.container k src hk).1, fun n => ?_⟩
            rw [hd' k n hne]; exact (ht.container k src hk).2 n
          · intro k fs hk
            rw [hfr] at hk
            rw [lookup_mapSet]
            by_cases hne : k = key
            · subst hne
              rw [if_pos rfl, hl]
              refine ⟨_, rfl, sorted_mapPut strOrder _ _ _ hn hso, fun n => ?_⟩
              rw [lookup_mapPut _ _ _ _ _ hn, hd, ← hde]
              by_cases h : n = name
              · subst h; simp [hn]
              · simp [h, Ne.symm h]
            · rw [if_neg hne]
              obtain ⟨fs', a, b, c⟩ := ht.composite k fs hk
              exact ⟨fs', a, b, fun n => by rw [hd' k n hne]; exact c n⟩

theorem tracks_run (fs : List Event) : ∀ {es : List Event} {m m' : Schemas}, Tracks es m → (∀ e ∈ fs, Plain e) →
    runEvents m fs = .ok m' → Tracks (es ++ fs) m' := by
  induction fs with
  | nil => intro es m m' ht _ hr; simp only [runEvents, Res.ok.injEq] at hr; subst hr; simpa using ht
  | cons e fs ih =>
    intro es m m' ht hp hr
    simp only [runEvents] at hr
    cases h : runEvent m e with
    | ok m1 =>
      rw [h] at hr
      have := ih (tracks_step ht (hp e (by simp)) h) (fun x hx => hp x (by simp [hx])) hr
      simpa using this
    | throw s => rw [h] at hr; simp [Res.bind] at hr
    | ub s => rw [h] at hr; simp [Res.bind] at hr

/-- Every property belongs to a class registered before, so the assertions hold. -/
theorem runEvent_has {m m' : Schemas} {e : Event} (h : runEvent m e = .ok m') (k : Str × Str)
    (hk : (m.lookup k).isSome) : (m'.lookup k).isSome := by
  cases e with
  | trace p =>
    cases p with
    | false => simp [runEvent] at h
    | true => simp only [runEvent, if_true, Res.ok.injEq] at h; subst h; exact hk
  | reg key b =>
    simp only [runEvent] at h
    cases hl : m.lookup key with
    | some x => rw [hl] at h; simp only [Res.ok.injEq] at h; subst h; exact hk
    | none =>
      rw [hl] at h; simp only [Res.ok.injEq] at h; subst h
      rw [lookup_mapPut _ _ _ _ _ hl]
      split <;> simp [hk]
  | prop key name desc =>
    simp only [runEvent] at h
    cases hl : m.lookup key with
    | none => rw [hl] at h; simp at h
    | some x =>
      cases x with
      | list src => rw [hl] at h; simp at h
      | comp fields =>
        rw [hl] at h
        simp only at h
        cases hn : fields.lookup name with
        | some d => rw [hn] at h; simp only [Res.ok.injEq] at h; subst h; exact hk
        | none =>
          rw [hn] at h; simp only [Res.ok.injEq] at h; subst h
          rw [lookup_mapSet]
          split
          · rw [hl]; rfl
          · exact hk

theorem runEvents_has (es : List Event) : ∀ {m m' : Schemas}, runEvents m es = .ok m' → ∀ k,
    (m.lookup k).isSome → (m'.lookup k).isSome := by
  induction es with
  | nil => intro m m' h k hk; simp only [runEvents, Res.ok.injEq] at h; subst h; exact hk
  | cons e es ih =>
    intro m m' h k hk
    simp only [runEvents] at h
    cases h1 : runEvent m e with
    | ok m1 => rw [h1] at h; exact ih h k (runEvent_has h1 k hk)
    | throw s => rw [h1] at h; simp [Res.bind] at h
    | ub s => rw [h1] at h; simp [Res.bind] at h

/-- No failing assertion, and the only exception is the failed cast. -/
def Tame (K : Schemas → Prop) (es : List Event) : Prop :=
  ∀ m, K m → (∃ m', runEvents m es = .ok m') ∨ runEvents m es = .throw "bad_cast"
    ∨ runEvents m es = .ub "char pointer"

def Has (k : Str × Str) (m : Schemas) : Prop := (m.lookup k).isSome
def Any (_ : Schemas) : Prop := True

theorem tame_append {K : Schemas → Prop} {es fs : List Event}
    (hK : ∀ m m', K m → runEvents m es = .ok m' → K m') (h1 : Tame K es) (h2 : Tame K fs) : Tame K (es ++ fs) := by
  intro m hm
  rw [runEvents_append]
  rcases h1 m hm with ⟨m', h⟩ | h | h
  · rw [h]; exact h2 m' (hK m m' hm h)
  · rw [h]; exact .inr (.inl rfl)
  · rw [h]; exact .inr (.inr rfl)

theorem tame_any {K : Schemas → Prop} {es : List Event} (h : Tame Any es) : Tame K es := fun m _ => h m trivial

theorem has_keeps (k : Str × Str) (es : List Event) : ∀ m m', Has k m → runEvents m es = .ok m' → Has k m' :=
  fun _ _ hm h => runEvents_has es h k hm

theorem tame_nil {K : Schemas → Prop} : Tame K [] := fun m _ => .inl ⟨m, rfl⟩

theorem tame_prop (key : Str × Str) (n : Str) (d : List Node) : Tame (Has key) [.prop key n d] := by
  intro m hm
  simp only [Has] at hm
  simp only [runEvents, runEvent]
  cases hl : m.lookup key with
  | none => rw [hl] at hm; simp at hm
  | some x =>
    cases x with
    | list src => exact .inr (.inl rfl)
    | comp fields => cases hn : fields.lookup n <;> simp [hn, Res.bind]

theorem tame_trace {K : Schemas → Prop} (prints : Bool) : Tame K [.trace prints] := by
  intro m _
  cases prints
  · exact .inr (.inr rfl)
  · exact .inl ⟨m, rfl⟩

theorem tame_reg {es : List Event} (key : Str × Str) (b : Blob) (h : Tame (Has key) es) :
    Tame Any (.reg key b :: es) := by
  intro m _
  simp only [runEvents, runEvent]
  cases hl : m.lookup key with
  | some x => exact h m (by simp [Has, hl])
  | none =>
    exact h _ (by simp [Has, lookup_mapPut keyLt key b m key hl])

mutual

theorem tame_object : (o : Obj) → Tame Any (objEvents o)
  | .comp n f ms => by unfold objEvents; exact tame_reg _ _ (tame_members (n, f) ms)
  | .list n f es => by unfold objEvents; exact tame_reg _ _ (tame_any (tame_elems es))
  | .map n f es => by unfold objEvents; exact tame_reg _ _ (tame_any (tame_entries es))

theorem tame_members (key : Str × Str) : (ms : List Member) → Tame (Has key) (membersEvents key ms)
  | [] => by unfold membersEvents; exact tame_nil
  | m :: ms => by
    unfold membersEvents
    exact tame_append (has_keeps key _) (tame_member key m) (tame_members key ms)

theorem tame_member (key : Str × Str) : (m : Member) → Tame (Has key) (memberEvents key m)
  | .prim n ptr v => by
    unfold memberEvents
    exact tame_append (es := [_]) (has_keeps key _) (tame_trace _) (tame_prop _ _ _)
  | .nullPrim n t => by
    unfold memberEvents
    exact tame_append (es := [_]) (has_keeps key _) (tame_trace _) (tame_prop _ _ _)
  | .obj n t ptr o => by
    unfold memberEvents
    exact tame_append (es := [_]) (has_keeps key _) (tame_prop _ _ _) (tame_any (tame_object o))
  | .nullObj n t => by
    unfold memberEvents
    exact tame_append (es := [_]) (has_keeps key _) (tame_prop _ _ _) (tame_prop _ _ _)

theorem tame_elems : (es : List Elem) → Tame Any (elemsEvents es)
  | [] => by unfold elemsEvents; exact tame_nil
  | e :: es => by
    unfold elemsEvents
    exact tame_append (fun _ _ _ _ => trivial) (tame_elem e) (tame_elems es)

theorem tame_elem : (e : Elem) → Tame Any (elemEvents e)
  | .prim v => by unfold elemEvents; exact tame_nil
  | .nullPrim t => by unfold elemEvents; exact tame_trace _
  | .obj o => by unfold elemEvents; exact tame_object o

theorem tame_entries : (es : List Entry) → Tame Any (entriesEvents es)
  | [] => by unfold entriesEvents; exact tame_nil
  | .mk k v :: es => by
    unfold entriesEvents
    exact tame_append (fun _ _ _ _ => trivial)
      (tame_append (fun _ _ _ _ => trivial) (tame_elem k) (tame_elem v)) (tame_entries es)

end

/-! The events against the specification. -/

def useOf : Event → Option ClassUse
  | .reg k (.comp _) => some (k, none)
  | .reg k (.list src) => some (k, some src)
  | .prop _ _ _ => none
  | .trace _ => none

mutual

theorem uses_object : (o : Obj) → (objEvents o).filterMap useOf = classes o
  | .comp n f ms => by simp [objEvents, classes, useOf, uses_members (n, f) ms]
  | .list n f es => by simp [objEvents, classes, useOf, uses_elems es]
  | .map n f es => by simp [objEvents, classes, useOf, uses_entries es]

theorem uses_members (key : Str × Str) : (ms : List Member) →
    (membersEvents key ms).filterMap useOf = classesMembers ms
  | [] => by simp [membersEvents, classesMembers]
  | m :: ms => by simp [membersEvents, classesMembers, uses_member key m, uses_members key ms]

theorem uses_member (key : Str × Str) : (m : Member) → (memberEvents key m).filterMap useOf = classesMember m
  | .prim n ptr v => by simp [memberEvents, classesMember, useOf]
  | .nullPrim n t => by simp [memberEvents, classesMember, useOf]
  | .obj n t ptr o => by
    simp only [memberEvents, classesMember]
    rw [List.filterMap_cons_none rfl, uses_object o]
  | .nullObj n t => by simp [memberEvents, classesMember, useOf]

theorem uses_elems : (es : List Elem) → (elemsEvents es).filterMap useOf = classesElems es
  | [] => by simp [elemsEvents, classesElems]
  | e :: es => by simp [elemsEvents, classesElems, uses_elem e, uses_elems es]

theorem uses_elem : (e : Elem) → (elemEvents e).filterMap useOf = classesElem e
  | .prim v => by simp [elemEvents, classesElem]
  | .nullPrim t => by simp [elemEvents, classesElem, useOf]
  | .obj o => by simp [elemEvents, classesElem, uses_object o]

theorem uses_entries : (es : List Entry) → (entriesEvents es).filterMap useOf = classesEntries es
  | [] => by simp [entriesEvents, classesEntries]
  | .mk k v :: es => by simp [entriesEvents, classesEntries, uses_elem k, uses_elem v, uses_entries es]

end

mutual

theorem plain_object : (o : Obj) → ∀ e ∈ objEvents o, Plain e
  | .comp n f ms => by
    simp only [objEvents, List.mem_cons, forall_eq_or_imp]; exact ⟨rfl, plain_members (n, f) ms⟩
  | .list n f es => by
    simp only [objEvents, List.mem_cons, forall_eq_or_imp]; exact ⟨trivial, plain_elems es⟩
  | .map n f es => by
    simp only [objEvents, List.mem_cons, forall_eq_or_imp]; exact ⟨trivial, plain_entries es⟩

theorem plain_members (key : Str × Str) : (ms : List Member) → ∀ e ∈ membersEvents key ms, Plain e
  | [] => by simp [membersEvents]
  | m :: ms => by
    simp only [membersEvents, List.mem_append]
    rintro e (h | h)
    · exact plain_member key m e h
    · exact plain_members key ms e h

theorem plain_member (key : Str × Str) : (m : Member) → ∀ e ∈ memberEvents key m, Plain e
  | .prim n ptr v => by simp [memberEvents, Plain]
  | .nullPrim n t => by simp [memberEvents, Plain]
  | .obj n t ptr o => by
    simp only [memberEvents, List.mem_cons, forall_eq_or_imp]; exact ⟨trivial, plain_object o⟩
  | .nullObj n t => by simp [memberEvents, Plain]

theorem plain_elems : (es : List Elem) → ∀ e ∈ elemsEvents es, Plain e
  | [] => by simp [elemsEvents]
  | x :: es => by
    simp only [elemsEvents, List.mem_append]
    rintro e (h | h)
    · exact plain_elem x e h
    · exact plain_elems es e h

theorem plain_elem : (x : Elem) → ∀ e ∈ elemEvents x, Plain e
  | .prim v => by simp [elemEvents]
  | .nullPrim t => by simp [elemEvents, Plain]
  | .obj o => by simp only [elemEvents]; exact plain_object o

theorem plain_entries : (es : List Entry) → ∀ e ∈ entriesEvents es, Plain e
  | [] => by simp [entriesEvents]
  | .mk k v :: es => by
    simp only [entriesEvents, List.mem_append]
    rintro e ((h | h) | h)
    · exact plain_elem k e h
    · exact plain_elem v e h
    · exact plain_entries es e h

end

/-- What the registration of a class says about it. -/
def kindOf : Blob → Option Str
  | .comp _ => none
  | .list src => some src

theorem firstReg_kind (k : Str × Str) (es : List Event) :
    (firstReg k es).map kindOf = (es.filterMap useOf).lookup k := by
  induction es with
  | nil => rfl
  | cons e es ih =>
    simp only [firstReg] at ih
    cases e with
    | prop a b c => rw [List.filterMap_cons_none rfl, ← ih]; rfl
    | trace p => rw [List.filterMap_cons_none rfl, ← ih]; rfl
    | reg k' b =>
      by_cases h : k' = k
      · subst h
        cases b <;> simp [firstReg, useOf, List.findSome?_cons, List.lookup, kindOf]
      · have : (k == k') = false := by simpa using Ne.symm h
        cases b <;> simp [firstReg, useOf, List.findSome?_cons, List.lookup, h, this, ih]

/-- The descriptions recorded against the specification. -/
def descOf (ps : List ((Str × Str) × PropDesc)) (k : Str × Str) (n : Str) : Option (List Node) :=
  (firstProp ps k n).map fun d => [d.tree]

theorem descOf_append (as bs : List ((Str × Str) × PropDesc)) (k : Str × Str) (n : Str) :
    descOf (as ++ bs) k n = (descOf as k n).or (descOf bs k n) := by
  simp only [descOf, firstProp, List.findSome?_append]
  cases List.findSome? (fun e => if e.1 = k ∧ e.2.name = n then some e.2 else none) as <;> simp

theorem descOf_nil (k : Str × Str) (n : Str) : descOf [] k n = none := rfl

theorem descOf_one (key : Str × Str) (d : PropDesc) (k : Str × Str) (n : Str) :
    descOf [(key, d)] k n = if key = k ∧ d.name = n then some [d.tree] else none := by
  by_cases h : key = k ∧ d.name = n <;> simp [descOf, firstProp, h]

theorem firstDesc_one (key : Str × Str) (name : Str) (d : List Node) (k : Str × Str) (n : Str) :
    firstDesc k n [.prop key name d] = if key = k ∧ name = n then some d else none := by
  by_cases h : key = k ∧ name = n <;> simp [firstDesc, h]

theorem firstDesc_reg (key : Str × Str) (b : Blob) (es : List Event) (k : Str × Str) (n : Str) :
    firstDesc k n (.reg key b :: es) = firstDesc k n es := rfl

theorem firstDesc_trace (p : Bool) (es : List Event) (k : Str × Str) (n : Str) :
    firstDesc k n (.trace p :: es) = firstDesc k n es := rfl

theorem primDesc_eq (n : Str) (t : PrimType) (ptr : Bool) :
    primDesc n t ptr = [PropDesc.tree ⟨n, t.typeName, [], ptr⟩] :=
  Props.fieldProton_eq ⟨n, t.typeName, [], [], [], ptr, false⟩

theorem compositeDesc_eq (n t : Str) : compositeDesc n t = [PropDesc.tree ⟨n, t, [], false⟩] :=
  Props.fieldProton_eq ⟨n, t, [], [], [], false, false⟩

theorem restrictedDesc_eq (n t : Str) : restrictedDesc n t = [PropDesc.tree ⟨n, "*".toList, [t], false⟩] :=
  Props.fieldProton_eq ⟨n, "*".toList, [t], [], [], false, false⟩

mutual

theorem descs_object (k : Str × Str) (x : Str) : (o : Obj) → firstDesc k x (objEvents o) = descOf (props o) k x
  | .comp n f ms => by rw [objEvents, props, firstDesc_reg]; exact descs_members k x (n, f) ms
  | .list n f es => by rw [objEvents, props, firstDesc_reg]; exact descs_elems k x es
  | .map n f es => by rw [objEvents, props, firstDesc_reg]; exact descs_entries k x es

theorem descs_members (k : Str × Str) (x : Str) (key : Str × Str) : (ms : List Member) →
    firstDesc k x (membersEvents key ms) = descOf (propsMembers key ms) k x
  | [] => by rw [membersEvents, propsMembers]; rfl
  | m :: ms => by
    rw [membersEvents, propsMembers, firstDesc_append, descOf_append, descs_member k x key m,
      descs_members k x key ms]

theorem descs_member (k : Str × Str) (x : Str) (key : Str × Str) : (m : Member) →
    firstDesc k x (memberEvents key m) = descOf (propsMember key m) k x
  | .prim n ptr v => by
    rw [memberEvents, propsMember, firstDesc_trace, firstDesc_one, descOf_one, primDesc_eq]
    · by_cases h : key = k ∧ n = x <;> simp [memberDesc, h]
    · simp
  | .nullPrim n t => by
    rw [memberEvents, propsMember, firstDesc_trace, firstDesc_one, descOf_one, primDesc_eq]
    · by_cases h : key = k ∧ n = x <;> simp [memberDesc, h]
    · simp
  | .obj n t ptr o => by
    have h1 := firstDesc_append k x
      [.prop key n (if !ptr && o.isContainer then restrictedDesc n t else compositeDesc n t)] (objEvents o)
    have h2 := descOf_append [(key, memberDesc (.obj n t ptr o))] (props o) k x
    simp only [List.cons_append, List.nil_append] at h1 h2
    rw [memberEvents, propsMember, h1, h2, descs_object k x o, firstDesc_one, descOf_one, restrictedDesc_eq,
      compositeDesc_eq]
    congr 1
    by_cases hc : (!ptr && o.isContainer) = true <;> simp only [memberDesc, hc] <;> rfl
  | .nullObj n t => by
    have h1 := firstDesc_append k x [.prop key n (compositeDesc n t)] [.prop key n (nullDesc n t)]
    simp only [List.cons_append, List.nil_append] at h1
    rw [memberEvents, propsMember, h1, firstDesc_one, firstDesc_one, descOf_one, compositeDesc_eq]
    · by_cases h : key = k ∧ n = x <;> simp [memberDesc, h]
    · simp

theorem descs_elems (k : Str × Str) (x : Str) : (es : List Elem) →
    firstDesc k x (elemsEvents es) = descOf (propsElems es) k x
  | [] => by rw [elemsEvents, propsElems]; rfl
  | e :: es => by
    rw [elemsEvents, propsElems, firstDesc_append, descOf_append, descs_elem k x e, descs_elems k x es]

theorem descs_elem (k : Str × Str) (x : Str) : (e : Elem) →
    firstDesc k x (elemEvents e) = descOf (propsElem e) k x
  | .prim v => by rw [elemEvents, propsElem] <;> simp [firstDesc, descOf_nil]
  | .nullPrim t => by rw [elemEvents, propsElem] <;> simp [firstDesc, descOf_nil]
  | .obj o => by rw [elemEvents, propsElem]; exact descs_object k x o

theorem descs_entries (k : Str × Str) (x : Str) : (es : List Entry) →
    firstDesc k x (entriesEvents es) = descOf (propsEntries es) k x
  | [] => by rw [entriesEvents, propsEntries]; rfl
  | .mk a b :: es => by
    rw [entriesEvents, propsEntries, firstDesc_append, firstDesc_append, descOf_append, descOf_append,
      descs_elem k x a, descs_elem k x b, descs_entries k x es]

end

/-! When printing is harmless. -/

/-- Every value printed can be. -/
def Printed (es : List Event) : Prop := ∀ e ∈ es, e ≠ .trace false

theorem printed_append (es fs : List Event) : Printed (es ++ fs) ↔ Printed es ∧ Printed fs := by
  simp only [Printed, List.mem_append]
  exact ⟨fun h => ⟨fun e he => h e (.inl he), fun e he => h e (.inr he)⟩, fun h e he => he.elim (h.1 e) (h.2 e)⟩

theorem printed_nil : Printed [] ↔ True := by simp [Printed]

theorem printed_trace (p : Bool) : Printed [.trace p] ↔ p = true := by simp [Printed]

theorem printed_prop (k : Str × Str) (n : Str) (d : List Node) : Printed [.prop k n d] ↔ True := by simp [Printed]

theorem printed_reg (k : Str × Str) (b : Blob) (es : List Event) : Printed (.reg k b :: es) ↔ Printed es := by
  simp [Printed]

theorem printed_cons (e : Event) (es : List Event) : Printed (e :: es) ↔ Printed [e] ∧ Printed es :=
  printed_append [e] es

mutual

theorem printed_object : (o : Obj) → (Printed (objEvents o) ↔ NoCharPointers o)
  | .comp n f ms => by rw [objEvents, NoCharPointers, printed_reg, printed_members (n, f) ms]
  | .list n f es => by rw [objEvents, NoCharPointers, printed_reg, printed_elems es]
  | .map n f es => by rw [objEvents, NoCharPointers, printed_reg, printed_entries es]

theorem printed_members (key : Str × Str) : (ms : List Member) →
    (Printed (membersEvents key ms) ↔ NoCharPointersMembers ms)
  | [] => by rw [membersEvents, NoCharPointersMembers, printed_nil]
  | m :: ms => by
    rw [membersEvents, NoCharPointersMembers, printed_append, printed_member key m, printed_members key ms]

theorem printed_member (key : Str × Str) : (m : Member) → (Printed (memberEvents key m) ↔ NoCharPointersMember m)
  | .prim n ptr v => by
    rw [memberEvents, NoCharPointersMember, printed_cons, printed_trace, printed_prop]
    cases ptr <;> cases v <;> simp [Prim.pointerPrints, Prim.type]
  | .nullPrim n t => by
    rw [memberEvents, NoCharPointersMember, printed_cons, printed_trace, printed_prop]
    cases t <;> simp [PrimType.nullPrints]
  | .obj n t ptr o => by
    rw [memberEvents, NoCharPointersMember, printed_cons, printed_prop, printed_object o, true_and]
  | .nullObj n t => by
    rw [memberEvents, NoCharPointersMember, printed_cons, printed_prop, printed_prop, true_and]

theorem printed_elems : (es : List Elem) → (Printed (elemsEvents es) ↔ NoCharPointersElems es)
  | [] => by rw [elemsEvents, NoCharPointersElems, printed_nil]
  | e :: es => by rw [elemsEvents, NoCharPointersElems, printed_append, printed_elem e, printed_elems es]

theorem printed_elem : (e : Elem) → (Printed (elemEvents e) ↔ NoCharPointersElem e)
  | .prim v => by rw [elemEvents, NoCharPointersElem, printed_nil]
  | .nullPrim t => by
    rw [elemEvents, NoCharPointersElem, printed_trace]
    cases t <;> simp [PrimType.nullPrints]
  | .obj o => by rw [elemEvents, NoCharPointersElem, printed_object o]

theorem printed_entries : (es : List Entry) → (Printed (entriesEvents es) ↔ NoCharPointersEntries es)
  | [] => by rw [entriesEvents, NoCharPointersEntries, printed_nil]
  | .mk k v :: es => by
    rw [entriesEvents, NoCharPointersEntries, printed_append, printed_append, printed_elem k, printed_elem v,
      printed_entries es, and_assoc]

end

theorem runEvents_printed (es : List Event) : ∀ {m m' : Schemas}, runEvents m es = .ok m' → Printed es := by
  induction es with
  | nil => intro m m' _; exact printed_nil.2 trivial
  | cons e es ih =>
    intro m m' h
    simp only [runEvents] at h
    cases h1 : runEvent m e with
    | ok m1 =>
      rw [h1] at h
      rw [printed_cons]
      refine ⟨?_, ih h⟩
      intro x hx
      simp only [List.mem_singleton] at hx
      subst hx
      intro hc
      subst hc
      simp [runEvent] at h1
    | throw s => rw [h1] at h; simp [Res.bind] at h
    | ub s => rw [h1] at h; simp [Res.bind] at h

theorem printed_defined (es : List Event) (hp : Printed es) : ∀ m, runEvents m es ≠ .ub "char pointer" := by
  induction es with
  | nil => intro m h; simp [runEvents] at h
  | cons e es ih =>
    intro m h
    obtain ⟨h1, h2⟩ := (printed_cons e es).1 hp
    simp only [runEvents] at h
    cases hr : runEvent m e with
    | ok m1 => rw [hr] at h; exact ih h2 m1 h
    | throw s => rw [hr] at h; simp [Res.bind] at h
    | ub s =>
      rw [hr] at h
      simp only [Res.bind, Res.ub.injEq] at h
      subst h
      cases e with
      | reg k b => simp only [runEvent] at hr; cases hl : m.lookup k <;> rw [hl] at hr <;> simp at hr
      | prop k n d =>
        simp only [runEvent] at hr
        cases hl : m.lookup k with
        | none => rw [hl] at hr; simp at hr
        | some x =>
          rw [hl] at hr
          cases x with
          | list src => simp at hr
          | comp fs => simp only at hr; cases hn : fs.lookup n <;> rw [hn] at hr <;> simp at hr
      | trace p => exact h1 (.trace p) (by simp) (by cases p <;> simp [runEvent] at hr ⊢)

/-! When serialisation succeeds. -/

theorem run_no_throw (es : List Event) (hp : ∀ e ∈ es, Plain e)
    (hc : ∀ k n, firstDesc k n es ≠ none → (firstReg k es).map kindOf = some none) :
    ∀ w, runEvents [] es ≠ .throw w := by
  suffices ∀ (post pre : List Event) (m : Schemas), es = pre ++ post → runEvents [] pre = .ok m →
      ∀ w, runEvents m post ≠ .throw w from this es [] [] rfl rfl
  intro post
  induction post with
  | nil => intro pre m _ _ w; simp [runEvents]
  | cons e post ih =>
    intro pre m he hr w'
    have htr : Tracks pre m := by
      simpa using tracks_run pre tracks_nil (fun x hx => hp x (by simp [he, hx])) hr
    cases hs : runEvent m e with
    | ok m1 =>
      have h2 := ih (pre ++ [e]) m1 (by simp [he]) (by rw [runEvents_append, hr]; simp [Res.bind, runEvents, hs]) w'
      simpa [runEvents, hs, Res.bind] using h2
    | ub w => simp [runEvents, hs, Res.bind]
    | throw w =>
      exfalso
      cases e with
      | reg key b => simp only [runEvent] at hs; cases hl : m.lookup key <;> rw [hl] at hs <;> simp at hs
      | trace p => cases p <;> simp [runEvent] at hs
      | prop key name desc =>
        have hd : firstDesc key name es ≠ none := by
          have h1 := firstDesc_append key name [.prop key name desc] post
          simp only [List.cons_append, List.nil_append] at h1
          rw [he, firstDesc_append, h1, firstDesc_one]
          simp
        have hk := hc key name hd
        simp only [runEvent] at hs
        cases hl : m.lookup key with
        | none => rw [hl] at hs; simp at hs
        | some x =>
          cases x with
          | comp fields => rw [hl] at hs; simp only at hs; cases hn : fields.lookup name <;> rw [hn] at hs <;> simp at hs
          | list src =>
            have : firstReg key pre = some (.list src) := by
              cases h : firstReg key pre with
              | none => rw [(htr.absent key h).1] at hl; simp at hl
              | some y =>
                cases y with
                | list src' => rw [(htr.container key src' h).1] at hl; simpa using hl
                | comp fs => obtain ⟨_, h2, _⟩ := htr.composite key fs h; rw [h2] at hl; simp at hl
            rw [he, firstReg_append, this] at hk
            simp [kindOf] at hk

theorem run_ok (es : List Event) (hp : ∀ e ∈ es, Plain e) (ht : Tame Any es) (hpr : Printed es)
    (hc : ∀ k n, firstDesc k n es ≠ none → (firstReg k es).map kindOf = some none) :
    ∃ m, runEvents [] es = .ok m := by
  rcases ht [] trivial with h | h | h
  · exact h
  · exact absurd h (run_no_throw es hp hc _)
  · exact absurd h (printed_defined es hpr _)

theorem mem_classes_lookup (cs : List ClassUse) (k : Str × Str) : k ∈ cs.map Prod.fst ↔ cs.lookup k ≠ none := by
  rw [ne_eq, lookup_none_iff]
  simp only [List.mem_map]
  grind

/-- Recovers the descriptions from the recorded trees. -/
theorem unmap {α β : Type} (f : α → β) (bs : List β) (h : ∀ b ∈ bs, ∃ a, f a = b) : ∃ as : List α, as.map f = bs := by
  induction bs with
  | nil => exact ⟨[], rfl⟩
  | cons b bs ih =>
    obtain ⟨a, ha⟩ := h b (by simp)
    obtain ⟨as, has⟩ := ih (fun x hx => h x (by simp [hx]))
    exact ⟨a :: as, by simp [ha, has]⟩

/-- A description as the schema entry that is made into it. -/
def ClassDesc.entry (d : ClassDesc) : (Str × Str) × Blob :=
  match d.body with
  | .inl ps => (d.key, .comp (ps.map fun p => (p.name, [p.tree])))
  | .inr src => (d.key, .list src)

theorem ClassDesc.entry_fst (d : ClassDesc) : (ClassDesc.entry d).1 = d.key := by
  unfold ClassDesc.entry; cases d.body <;> rfl

theorem entry_make (d : ClassDesc) : (ClassDesc.entry d).2.make (ClassDesc.entry d).1 = [d.tree] := by
  obtain ⟨k, b⟩ := d
  cases b with
  | inl ps =>
    simp only [ClassDesc.entry, Blob.make, ClassDesc.tree, List.map_map]
    have := Props.compositeProton_eq k.1 [] k.2 (ps.map PropDesc.tree) []
    rwa [List.map_map] at this
  | inr src =>
    simp only [ClassDesc.entry, Blob.make, ClassDesc.tree]
    exact Props.restrictedProton_eq k.1 src k.2

/-- What is left after all the events of an object. -/
theorem schemas_describe (o : Obj) (m : Schemas) (hr : runEvents [] (objEvents o) = .ok m) :
    ∃ ds : List ClassDesc, m = ds.map ClassDesc.entry ∧ Describes o ds := by
  have ht : Tracks (objEvents o) m := by simpa using tracks_run _ tracks_nil (plain_object o) hr
  have hkind : ∀ k, (firstReg k (objEvents o)).map kindOf = (classes o).lookup k := by
    intro k; rw [firstReg_kind, uses_object]
  have hdesc : ∀ k x, firstDesc k x (objEvents o) = descOf (props o) k x := fun k x => descs_object k x o
  have hcomp : ∀ k fs, m.lookup k = some (.comp fs) → (classes o).lookup k = some none ∧ SortedMap strLt fs
      ∧ ∀ n, fs.lookup n = descOf (props o) k n := by
    intro k fs hl
    rw [← hkind]
    cases h : firstReg k (objEvents o) with
    | none => rw [(ht.absent k h).1] at hl; simp at hl
    | some y =>
      cases y with
      | list src => rw [(ht.container k src h).1] at hl; simp at hl
      | comp fs0 =>
        obtain ⟨fs', h1, h2, h3⟩ := ht.composite k fs0 h
        rw [h1] at hl
        simp only [Option.some.injEq, Blob.comp.injEq] at hl
        subst hl
        exact ⟨rfl, h2, fun n => by rw [h3, hdesc]⟩
  have hlist : ∀ k src, m.lookup k = some (.list src) → (classes o).lookup k = some (some src) := by
    intro k src hl
    rw [← hkind]
    cases h : firstReg k (objEvents o) with
    | none => rw [(ht.absent k h).1] at hl; simp at hl
    | some y =>
      cases y with
      | list src' => rw [(ht.container k src' h).1] at hl; simp only [Option.some.injEq, Blob.list.injEq] at hl; simp [kindOf, hl]
      | comp fs0 => obtain ⟨fs', h1, _⟩ := ht.composite k fs0 h; rw [h1] at hl; simp at hl
  have hfields : ∀ k fs, m.lookup k = some (.comp fs) →
      ∃ ps : List PropDesc, ps.map (fun p => (p.name, [p.tree])) = fs
        ∧ ∀ p ∈ ps, firstProp (props o) k p.name = some p := by
    intro k fs hl
    obtain ⟨_, hso, hn⟩ := hcomp k fs hl
    have h1 : ∀ e ∈ fs, ∃ p : {p : PropDesc // firstProp (props o) k p.name = some p},
        (p.1.name, [p.1.tree]) = e := by
      intro e he
      have h2 := lookup_of_mem strOrder fs hso e he
      rw [hn, descOf] at h2
      cases h3 : firstProp (props o) k e.1 with
      | none => rw [h3] at h2; simp at h2
      | some p =>
        rw [h3] at h2
        simp only [Option.map_some, Option.some.injEq] at h2
        have hname : p.name = e.1 := by
          have := List.exists_of_findSome?_eq_some h3
          obtain ⟨a, _, ha⟩ := this
          by_cases hc : a.1 = k ∧ a.2.name = e.1
          · simp only [hc, and_self, if_true, Option.some.injEq] at ha
            rw [← ha]; exact hc.2
          · simp [hc] at ha
        exact ⟨⟨p, by rw [hname]; exact h3⟩, Prod.ext hname h2⟩
    obtain ⟨ps, hps⟩ := unmap _ fs h1
    refine ⟨ps.map Subtype.val, by rw [List.map_map]; exact hps, ?_⟩
    intro p hp
    obtain ⟨q, _, rfl⟩ := List.mem_map.1 hp
    exact q.2
  have hds : ∀ e ∈ m, ∃ d : {d : ClassDesc // ∀ ps, d.body = .inl ps →
      ∀ p ∈ ps, firstProp (props o) d.key p.name = some p}, ClassDesc.entry d.1 = e := by
    rintro ⟨k, b⟩ he
    have hl : m.lookup k = some b := lookup_of_mem keyOrder m ht.sorted _ he
    cases b with
    | list src => exact ⟨⟨⟨k, .inr src⟩, by simp⟩, rfl⟩
    | comp fs =>
      obtain ⟨ps, h1, h2⟩ := hfields k fs hl
      exact ⟨⟨⟨k, .inl ps⟩, by simpa using h2⟩, by simp [ClassDesc.entry, h1]⟩
  obtain ⟨ds0, hds0⟩ := unmap _ m hds
  have hm : m = (ds0.map Subtype.val).map ClassDesc.entry := by rw [List.map_map]; exact hds0.symm
  have hgood : ∀ d ∈ ds0.map Subtype.val, ∀ ps, d.body = .inl ps →
      ∀ p ∈ ps, firstProp (props o) d.key p.name = some p := by
    intro d hd
    obtain ⟨q, _, rfl⟩ := List.mem_map.1 hd
    exact q.2
  generalize ds0.map Subtype.val = ds at hm hgood
  refine ⟨ds, hm, ?_⟩
  have hsorted : ds.Pairwise fun a b => keyLt a.key b.key = true := by
    have := ht.sorted
    rw [hm, SortedMap, List.pairwise_map] at this
    simpa only [ClassDesc.entry_fst] using this
  have hentry : ∀ d ∈ ds, m.lookup d.key = some (ClassDesc.entry d).2 := by
    intro d hd
    have := lookup_of_mem keyOrder m ht.sorted (ClassDesc.entry d) (by rw [hm]; exact List.mem_map_of_mem hd)
    rwa [ClassDesc.entry_fst] at this
  have hfs : ∀ d ∈ ds, ∀ ps, d.body = .inl ps → m.lookup d.key = some (.comp (ps.map fun p => (p.name, [p.tree]))) := by
    intro d hd ps hb
    rw [hentry d hd]; simp [ClassDesc.entry, hb]
  have hps : ∀ d ∈ ds, ∀ ps, d.body = .inl ps → ps.Pairwise fun a b => strLt a.name b.name = true := by
    intro d hd ps hb
    have := (hcomp _ _ (hfs d hd ps hb)).2.1
    rwa [SortedMap, List.pairwise_map] at this
  refine ⟨hsorted, nodup_of_sorted keyOrder _ _ hsorted, ?_, ?_, hps,
    fun d hd ps hb => nodup_of_sorted strOrder _ _ (hps d hd ps hb), ?_⟩
  · intro k
    rw [mem_classes_lookup, ← hkind]
    have h1 : k ∈ ds.map ClassDesc.key ↔ m.lookup k ≠ none := by
      rw [ne_eq, lookup_none_iff, hm]
      simp only [List.mem_map]
      constructor
      · rintro ⟨d, hd, rfl⟩ h
        exact h _ ⟨d, hd, rfl⟩ (ClassDesc.entry_fst d)
      · intro h
        apply Classical.byContradiction
        intro hn
        apply h
        rintro e ⟨d, hd, rfl⟩ he
        rw [ClassDesc.entry_fst] at he
        exact hn ⟨d, hd, he⟩
    rw [h1]
    cases h : firstReg k (objEvents o) with
    | none => simp [(ht.absent k h).1]
    | some y =>
      cases y with
      | list src => simp [(ht.container k src h).1]
      | comp fs => obtain ⟨_, h2, _⟩ := ht.composite k fs h; simp [h2]
  · intro d hd src
    have h1 := hentry d hd
    obtain ⟨k, b⟩ := d
    cases b with
    | inr s =>
      have := hlist _ _ h1
      simp only [this]
      simp
    | inl ps =>
      have := (hcomp _ _ h1).1
      simp only [this]
      simp
  · intro d hd ps hb p
    refine ⟨hgood d hd ps hb p, ?_⟩
    intro hp
    have h1 := (hcomp _ _ (hfs d hd ps hb)).2.2 p.name
    rw [descOf, hp] at h1
    have h2 := mem_of_lookup _ _ _ h1
    obtain ⟨q, hq, he⟩ := List.mem_map.1 h2
    have hq2 := hgood d hd ps hb q hq
    simp only [Prod.mk.injEq] at he
    rw [he.1, hp] at hq2
    simp only [Option.some.injEq] at hq2
    rw [hq2]; exact hq

theorem serialise_eq (o : Obj) :
    (∃ ds, Describes o ds ∧ (∃ m, runEvents [] (objEvents o) = .ok m) ∧
      serialise o = .ok [envelopeTree (objTree o) (schemaTree (ds.map ClassDesc.tree)) (.mk .null [])])
    ∨ (runEvents [] (objEvents o) = .throw "bad_cast" ∧ serialise o = .throw "bad_cast")
    ∨ (¬ NoCharPointers o ∧ serialise o = .ub "char pointer") := by
  have hd := does_object o WState.init rfl
  rcases tame_object o [] trivial with ⟨m, h⟩ | h | h
  · left
    obtain ⟨ds, hm, hds⟩ := schemas_describe o m h
    refine ⟨ds, hds, ⟨m, h⟩, ?_⟩
    have h' : runEvents WState.init.schemas (objEvents o) = .ok m := h
    rw [h'] at hd
    simp only at hd
    unfold serialise
    rw [hd]
    simp only [WState.toBlob]
    have hp : (Cursor.append [objTree o] WState.init.payload).forest = [objTree o] := rfl
    have hs : m.map (fun e => e.2.make e.1) = (ds.map ClassDesc.tree).map fun n => [n] := by
      rw [hm, List.map_map, List.map_map]
      exact List.map_congr_left fun d _ => entry_make d
    rw [hp, hs, Props.schemaProton_eq, Props.envelopeProton_eq]
  · right; left
    refine ⟨h, ?_⟩
    have h' : runEvents WState.init.schemas (objEvents o) = .throw "bad_cast" := h
    rw [h'] at hd
    obtain ⟨n, m, hd⟩ := hd
    unfold serialise
    rw [hd]
  · right; right
    refine ⟨fun hn => printed_defined _ ((printed_object o).2 hn) [] h, ?_⟩
    have h' : runEvents WState.init.schemas (objEvents o) = .ub "char pointer" := h
    rw [h'] at hd
    simp only at hd
    unfold serialise
    generalize object o WState.init = r at hd
    obtain ⟨a, b⟩ := r
    simp only at hd
    subst hd
    rfl

theorem kinds_ok (o : Obj) (h : ∀ e ∈ props o, (classes o).lookup e.1 = some none) (k : Str × Str) (n : Str)
    (hn : firstDesc k n (objEvents o) ≠ none) : (firstReg k (objEvents o)).map kindOf = some none := by
  rw [firstReg_kind, uses_object]
  rw [descs_object k n o, descOf] at hn
  cases h1 : firstProp (props o) k n with
  | none => rw [h1] at hn; simp at hn
  | some p =>
    obtain ⟨a, ha, hx⟩ := List.exists_of_findSome?_eq_some h1
    by_cases hc : a.1 = k ∧ a.2.name = n
    · rw [← hc.1]; exact h a ha
    · simp [hc] at hx

/-- The cast does not fail if the classes are all composites where they are first used. -/
theorem no_cast (o : Obj) (h : ∀ e ∈ props o, (classes o).lookup e.1 = some none) :
    serialise o ≠ .throw "bad_cast" := by
  have hr := run_no_throw (objEvents o) (plain_object o) (kinds_ok o h) "bad_cast"
  rcases serialise_eq o with ⟨ds, _, _, h1⟩ | ⟨h1, _⟩ | ⟨_, h1⟩
  · rw [h1]; simp
  · exact absurd h1 hr
  · rw [h1]; simp

/-- The classes a property belongs to must be composites where they are first used. -/
theorem serialise_ok_iff (o : Obj) :
    (∃ ns, serialise o = .ok ns) ↔ NoCharPointers o ∧ ∀ e ∈ props o, (classes o).lookup e.1 = some none := by
  have hkind : ∀ k, (firstReg k (objEvents o)).map kindOf = (classes o).lookup k := by
    intro k; rw [firstReg_kind, uses_object]
  have hdesc : ∀ k x, firstDesc k x (objEvents o) = descOf (props o) k x := fun k x => descs_object k x o
  constructor
  · rintro ⟨ns, h⟩
    rcases serialise_eq o with ⟨ds, _, ⟨m, hm⟩, _⟩ | ⟨_, h2⟩ | ⟨_, h2⟩
    · refine ⟨(printed_object o).1 (runEvents_printed _ hm), ?_⟩
      have ht : Tracks (objEvents o) m := by simpa using tracks_run _ tracks_nil (plain_object o) hm
      intro e he
      have h1 : firstDesc e.1 e.2.name (objEvents o) ≠ none := by
        rw [hdesc, descOf]
        intro h
        rw [Option.map_eq_none_iff] at h
        have := List.findSome?_eq_none_iff.1 h e he
        simp at this
      rw [← hkind]
      cases h2 : firstReg e.1 (objEvents o) with
      | none => exact absurd ((ht.absent _ h2).2 _) h1
      | some y =>
        cases y with
        | list src => exact absurd ((ht.container _ _ h2).2 _) h1
        | comp fs => rfl
    · rw [h2] at h; simp at h
    · rw [h2] at h; simp at h
  · rintro ⟨hcp, h⟩
    obtain ⟨m, hm⟩ := run_ok (objEvents o) (plain_object o) (tame_object o) ((printed_object o).2 hcp) (kinds_ok o h)
    rcases serialise_eq o with ⟨ds, _, _, h1⟩ | ⟨h1, _⟩ | ⟨h1, _⟩
    · exact ⟨_, h1⟩
    · rw [h1] at hm; simp at hm
    · exact absurd hcp h1

theorem firstProp_name {ps : List ((Str × Str) × PropDesc)} {k : Str × Str} {n : Str} {p : PropDesc}
    (h : firstProp ps k n = some p) : p.name = n := by
  obtain ⟨a, _, ha⟩ := List.exists_of_findSome?_eq_some h
  by_cases hc : a.1 = k ∧ a.2.name = n
  · simp only [hc, and_self, if_true, Option.some.injEq] at ha
    rw [← ha]; exact hc.2
  · simp [hc] at ha

/-! Properties are of composites in the graph. -/

mutual

theorem props_used : (o : Obj) → ∀ e ∈ props o, ∃ u ∈ classes o, u.1 = e.1 ∧ u.2 = none
  | .comp n f ms => by
    intro e he
    rw [props] at he
    rcases props_used_members (n, f) ms e he with h | ⟨u, hu, h⟩
    · exact ⟨((n, f), none), by simp [classes], h.symm, rfl⟩
    · exact ⟨u, by simp [classes, hu], h⟩
  | .list n f es => by
    intro e he
    rw [props] at he
    obtain ⟨u, hu, h⟩ := props_used_elems es e he
    exact ⟨u, by simp [classes, hu], h⟩
  | .map n f es => by
    intro e he
    rw [props] at he
    obtain ⟨u, hu, h⟩ := props_used_entries es e he
    exact ⟨u, by simp [classes, hu], h⟩

theorem props_used_members (key : Str × Str) : (ms : List Member) → ∀ e ∈ propsMembers key ms,
    e.1 = key ∨ ∃ u ∈ classesMembers ms, u.1 = e.1 ∧ u.2 = none
  | [] => by simp [propsMembers]
  | m :: ms => by
    intro e he
    rw [propsMembers, List.mem_append] at he
    rcases he with he | he
    · rcases props_used_member key m e he with h | ⟨u, hu, h⟩
      · exact .inl h
      · exact .inr ⟨u, by simp [classesMembers, hu], h⟩
    · rcases props_used_members key ms e he with h | ⟨u, hu, h⟩
      · exact .inl h
      · exact .inr ⟨u, by simp [classesMembers, hu], h⟩

theorem props_used_member (key : Str × Str) : (m : Member) → ∀ e ∈ propsMember key m,
    e.1 = key ∨ ∃ u ∈ classesMember m, u.1 = e.1 ∧ u.2 = none
  | .prim n ptr v => by intro e he; simp [propsMember] at he; exact .inl (by rw [he])
  | .nullPrim n t => by intro e he; simp [propsMember] at he; exact .inl (by rw [he])
  | .nullObj n t => by intro e he; simp [propsMember] at he; exact .inl (by rw [he])
  | .obj n t ptr o => by
    intro e he
    rw [propsMember, List.mem_cons] at he
    rcases he with he | he
    · exact .inl (by rw [he])
    · obtain ⟨u, hu, h⟩ := props_used o e he
      exact .inr ⟨u, by simp [classesMember, hu], h⟩

theorem props_used_elems : (es : List Elem) → ∀ e ∈ propsElems es, ∃ u ∈ classesElems es, u.1 = e.1 ∧ u.2 = none
  | [] => by simp [propsElems]
  | x :: es => by
    intro e he
    rw [propsElems, List.mem_append] at he
    rcases he with he | he
    · obtain ⟨u, hu, h⟩ := props_used_elem x e he
      exact ⟨u, by simp [classesElems, hu], h⟩
    · obtain ⟨u, hu, h⟩ := props_used_elems es e he
      exact ⟨u, by simp [classesElems, hu], h⟩

theorem props_used_elem : (x : Elem) → ∀ e ∈ propsElem x, ∃ u ∈ classesElem x, u.1 = e.1 ∧ u.2 = none
  | .prim v => by simp [propsElem]
  | .nullPrim t => by simp [propsElem]
  | .obj o => by
    intro e he
    rw [propsElem] at he
    obtain ⟨u, hu, h⟩ := props_used o e he
    exact ⟨u, by simp [classesElem, hu], h⟩

theorem props_used_entries : (es : List Entry) → ∀ e ∈ propsEntries es,
    ∃ u ∈ classesEntries es, u.1 = e.1 ∧ u.2 = none
  | [] => by simp [propsEntries]
  | .mk k v :: es => by
    intro e he
    rw [propsEntries, List.mem_append, List.mem_append] at he
    rcases he with (he | he) | he
    · obtain ⟨u, hu, h⟩ := props_used_elem k e he
      exact ⟨u, by simp [classesEntries, hu], h⟩
    · obtain ⟨u, hu, h⟩ := props_used_elem v e he
      exact ⟨u, by simp [classesEntries, hu], h⟩
    · obtain ⟨u, hu, h⟩ := props_used_entries es e he
      exact ⟨u, by simp [classesEntries, hu], h⟩

end

end Corda
