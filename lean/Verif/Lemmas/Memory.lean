import Verif.Spec.Memory
import Verif.Lemmas.Writer

/-
The trees made while an object is written are the descriptions of properties that are new.
-/

namespace Corda
open Spec

/-- `q` does what `p` does, makes as many trees as there are new descriptions, and keeps the keys different. -/
def Counts (p : Wr) (q : MWr) : Prop :=
  ∀ s : WState, (q s).1 = p s ∧ ((s.schemas.map Prod.fst).Nodup → ((p s).2.schemas.map Prod.fst).Nodup
    ∧ propertiesOf (p s).2.schemas = propertiesOf s.schemas + (q s).2.length)

theorem counts_none {p : Wr} (h : ∀ s, (p s).2.schemas = s.schemas) : Counts p (MWr.none p) := by
  intro s
  refine ⟨rfl, fun hn => ?_⟩
  rw [h s]
  exact ⟨hn, rfl⟩

theorem counts_seq {p p' : Wr} {q q' : MWr} (h : Counts p q) (h' : Counts p' q') : Counts (Wr.seq p p') (MWr.seq q q') := by
  intro s
  obtain ⟨he, hc⟩ := h s
  unfold Wr.seq MWr.seq
  rcases hq : q s with ⟨⟨r, s'⟩, o⟩
  rw [hq] at he hc
  simp only at he
  rw [← he] at hc ⊢
  cases r with
  | ok u =>
    obtain ⟨he', hc'⟩ := h' s'
    refine ⟨he', fun hn => ?_⟩
    obtain ⟨h1, h2⟩ := hc hn
    obtain ⟨h3, h4⟩ := hc' h1
    refine ⟨h3, ?_⟩
    simp only [List.length_append] at h2 ⊢
    rw [h4, h2]; omega
  | throw m => exact ⟨rfl, hc⟩
  | ub m => exact ⟨rfl, hc⟩

theorem keys_mapPut {κ ν : Type} (lt : κ → κ → Bool) (k : κ) (v : ν) (m : List (κ × ν)) :
    ((mapPut lt k v m).map Prod.fst).Perm (k :: m.map Prod.fst) := by
  induction m with
  | nil => exact List.Perm.refl _
  | cons e m ih =>
    simp only [mapPut]
    split
    · exact List.Perm.refl _
    · simp only [List.map_cons]
      exact (List.Perm.cons _ ih).trans (List.Perm.swap _ _ _)

theorem length_mapPut {κ ν : Type} (lt : κ → κ → Bool) (k : κ) (v : ν) (m : List (κ × ν)) : (mapPut lt k v m).length = m.length + 1 := by
  induction m with
  | nil => rfl
  | cons e m ih =>
    simp only [mapPut]
    split
    · rfl
    · simp [ih]

theorem propertiesOf_put (k : Str × Str) (b : Blob) (m : Schemas) :
    propertiesOf (mapPut keyLt k b m) = propertiesOf [(k, b)] + propertiesOf m := by
  induction m with
  | nil => rfl
  | cons e m ih =>
    simp only [mapPut]
    split
    · cases b <;> simp [propertiesOf]
    · obtain ⟨k', b'⟩ := e
      cases b' <;> simp only [propertiesOf, ih] <;> omega

theorem keys_mapSet (k : Str × Str) (b : Blob) (m : Schemas) : (mapSet k b m).map Prod.fst = m.map Prod.fst := by
  induction m with
  | nil => rfl
  | cons e m ih =>
    simp only [mapSet, List.map_cons] at ih ⊢
    rw [ih]
    congr 1
    split <;> rfl

theorem mapSet_absent (k : Str × Str) (b : Blob) (m : Schemas) (h : k ∉ m.map Prod.fst) : mapSet k b m = m := by
  induction m with
  | nil => rfl
  | cons e m ih =>
    simp only [List.map_cons, List.mem_cons, not_or] at h
    simp only [mapSet, List.map_cons] at ih ⊢
    rw [ih h.2, if_neg (fun he => h.1 he.symm)]

theorem propertiesOf_set (k : Str × Str) (fs fs' : List (Str × List Node)) (m : Schemas) (hn : (m.map Prod.fst).Nodup)
    (h : m.lookup k = some (.comp fs)) (hl : fs'.length = fs.length + 1) :
    propertiesOf (mapSet k (.comp fs') m) = propertiesOf m + 1 := by
  induction m with
  | nil => simp at h
  | cons e m ih =>
    obtain ⟨k', b'⟩ := e
    simp only [List.map_cons, List.nodup_cons] at hn
    by_cases hk : k' = k
    · subst hk
      simp only [List.lookup_cons_self, Option.some.injEq] at h
      subst h
      have := mapSet_absent k' (.comp fs') m hn.1
      unfold mapSet at this
      simp only [mapSet, List.map_cons, if_true, this, propertiesOf, hl]
      omega
    · have hb : (k == k') = false := by simp [Ne.symm hk]
      rw [List.lookup_cons, hb] at h
      have := ih hn.2 h
      unfold mapSet at this
      simp only [mapSet, List.map_cons, if_neg hk]
      cases b' <;> simp only [propertiesOf, this] <;> omega

theorem counts_property (key : Str × Str) (name : Str) (desc : List Node) : Counts (Wr.property key name desc) (MWr.property key name desc) := by
  intro s
  refine ⟨rfl, fun hn => ?_⟩
  unfold Wr.property MWr.property
  rcases hl : s.schemas.lookup key with _ | b
  · exact ⟨hn, rfl⟩
  · cases b with
    | list src => exact ⟨hn, rfl⟩
    | comp fields =>
      simp only
      rcases hf : fields.lookup name with _ | d
      · simp only
        rw [keys_mapSet]
        exact ⟨hn, propertiesOf_set key fields _ s.schemas hn hl (length_mapPut _ _ _ _)⟩
      · exact ⟨hn, rfl⟩

/-- The beginning of an object: the class is registered, without properties. -/
def Begins (p : Wr) : Prop := ∀ s : WState, (s.schemas.map Prod.fst).Nodup →
  ((p s).2.schemas.map Prod.fst).Nodup ∧ propertiesOf (p s).2.schemas = propertiesOf s.schemas

theorem begins_data (f : Cursor → Cursor) : Begins (Wr.data f) := fun _ hn => ⟨hn, rfl⟩

theorem begins_seq {p q : Wr} (hp : Begins p) (hq : Begins q) : Begins (Wr.seq p q) := by
  intro s hn
  obtain ⟨h1, h2⟩ := hp s hn
  unfold Wr.seq
  rcases h : p s with ⟨r, s'⟩
  rw [h] at h1 h2
  cases r with
  | ok u =>
    obtain ⟨h3, h4⟩ := hq s' h1
    exact ⟨h3, h4.trans h2⟩
  | throw m => exact ⟨h1, h2⟩
  | ub m => exact ⟨h1, h2⟩

theorem begins_register (key : Str × Str) (b : Blob) (hb : propertiesOf [(key, b)] = 0) : Begins (Wr.register key b) := by
  intro s hn
  unfold Wr.register
  rcases hl : s.schemas.lookup key with _ | x
  · simp only
    refine ⟨(keys_mapPut _ _ _ _).nodup_iff.2 (List.nodup_cons.2 ⟨?_, hn⟩), ?_⟩
    · intro hm
      rw [List.mem_map] at hm
      obtain ⟨e, he, hk⟩ := hm
      exact (lookup_none_iff s.schemas key).1 hl e he hk
    · rw [propertiesOf_put, hb]; omega
  · exact ⟨hn, rfl⟩

theorem begins_serializable (fp : Str) : Begins (Wr.startSerializable fp) :=
  begins_seq (begins_data _) (begins_seq (begins_data _) (begins_data _))

theorem begins_composite (key : Str × Str) : Begins (Wr.startComposite key) :=
  begins_seq (begins_register _ _ rfl) (begins_seq (begins_serializable _) (begins_seq (begins_data _) (begins_data _)))

theorem begins_restricted (key : Str × Str) (m : Bool) : Begins (Wr.startRestricted key m) :=
  begins_seq (begins_register _ _ rfl) (begins_seq (begins_serializable _) (begins_seq (begins_data _) (begins_data _)))

theorem counts_guarded {start body : Wr} {q : MWr} (stop : Cursor → Cursor) (hs : Begins start) (h : Counts body q) :
    Counts (Wr.guarded start body stop) (MWr.guarded start q stop) := by
  intro s
  unfold Wr.guarded MWr.guarded
  rcases hst : start s with ⟨r, s1⟩
  have hb := hs s
  rw [hst] at hb
  cases r with
  | ok u =>
    obtain ⟨he, hc⟩ := h s1
    simp only
    refine ⟨by rw [he], fun hn => ?_⟩
    obtain ⟨h1, h2⟩ := hb hn
    obtain ⟨h3, h4⟩ := hc h1
    exact ⟨h3, by rw [h4, h2]⟩
  | throw m => exact ⟨rfl, hb⟩
  | ub m => exact ⟨rfl, hb⟩

mutual

theorem counts_object : (o : Obj) → Counts (Wr.object o) (MWr.object o)
  | .comp n f ms => by
    rw [Wr.object, MWr.object]; exact counts_guarded _ (begins_composite _) (counts_members _ ms)
  | .list n f es => by
    rw [Wr.object, MWr.object]; exact counts_guarded _ (begins_restricted _ _) (counts_elems es)
  | .map n f es => by
    rw [Wr.object, MWr.object]; exact counts_guarded _ (begins_restricted _ _) (counts_entries es)

theorem counts_members (key : Str × Str) : (ms : List Member) → Counts (Wr.members key ms) (MWr.members key ms)
  | [] => by rw [Wr.members, MWr.members]; exact counts_none fun _ => rfl
  | m :: ms => by rw [Wr.members, MWr.members]; exact counts_seq (counts_member key m) (counts_members key ms)

theorem counts_member (key : Str × Str) : (m : Member) → Counts (Wr.member key m) (MWr.member key m)
  | .prim n ptr v => by
    rw [Wr.member, MWr.member]
    exact counts_seq (counts_none fun _ => rfl) (counts_seq (counts_property _ _ _) (counts_none fun _ => rfl))
  | .nullPrim n t => by
    rw [Wr.member, MWr.member]
    exact counts_seq (counts_none fun _ => rfl) (counts_seq (counts_property _ _ _) (counts_none fun _ => rfl))
  | .obj n t ptr o => by
    rw [Wr.member, MWr.member]; exact counts_seq (counts_property _ _ _) (counts_object o)
  | .nullObj n t => by
    rw [Wr.member, MWr.member]
    exact counts_seq (counts_property _ _ _) (counts_seq (counts_property _ _ _) (counts_none fun _ => rfl))

theorem counts_elems : (es : List Elem) → Counts (Wr.elems es) (MWr.elems es)
  | [] => by rw [Wr.elems, MWr.elems]; exact counts_none fun _ => rfl
  | e :: es => by rw [Wr.elems, MWr.elems]; exact counts_seq (counts_elem e) (counts_elems es)

theorem counts_elem : (e : Elem) → Counts (Wr.elem e) (MWr.elem e)
  | .prim v => by rw [Wr.elem, MWr.elem]; exact counts_none fun _ => rfl
  | .nullPrim t => by
    rw [Wr.elem, MWr.elem]; exact counts_seq (counts_none fun _ => rfl) (counts_none fun _ => rfl)
  | .obj o => by rw [Wr.elem, MWr.elem]; exact counts_object o

theorem counts_entries : (es : List Entry) → Counts (Wr.entries es) (MWr.entries es)
  | [] => by rw [Wr.entries, MWr.entries]; exact counts_none fun _ => rfl
  | .mk k v :: es => by
    rw [Wr.entries, MWr.entries, Wr.entry, MWr.entry]
    exact counts_seq (counts_seq (counts_elem k) (counts_elem v)) (counts_entries es)

end

theorem propertiesOf_entries (ds : List ClassDesc) :
    propertiesOf (ds.map ClassDesc.entry) + ds.length = descriptions ds := by
  induction ds with
  | nil => rfl
  | cons d ds ih =>
    obtain ⟨k, b⟩ := d
    cases b <;> simp only [List.map_cons, ClassDesc.entry, propertiesOf, descriptions, List.length_cons, List.length_map] <;> omega

/-- What writing an object to a new blob makes, when it succeeds. -/
theorem object_new (o : Obj) (ns : List Node) (h : serialise o = .ok ns) :
    ∃ ds m, Describes o ds ∧ serialise o = .ok [envelopeTree (objTree o) (schemaTree (ds.map ClassDesc.tree)) (.mk .null [])]
      ∧ Wr.object o WState.init = (.ok (), m) ∧ m.schemas.length = ds.length
      ∧ (MWr.object o WState.init).2.length + ds.length = descriptions ds := by
  rcases serialise_eq o with ⟨ds', _, ⟨m, hm⟩, he⟩ | ⟨_, he⟩ | ⟨_, he⟩
  · obtain ⟨ds, hmd, hds⟩ := schemas_describe o m hm
    have hd := does_object o WState.init rfl
    have h' : runEvents WState.init.schemas (objEvents o) = .ok m := hm
    rw [h'] at hd
    simp only at hd
    obtain ⟨hc1, hc2⟩ := counts_object o WState.init
    have := (hc2 List.nodup_nil).2
    rw [hd] at this
    simp only [WState.init, propertiesOf, Nat.zero_add, hmd] at this
    refine ⟨ds, _, hds, ?_, hd, by simp [hmd], ?_⟩
    · unfold serialise
      rw [hd]
      simp only [WState.toBlob]
      have hp : (Cursor.append [objTree o] WState.init.payload).forest = [objTree o] := rfl
      have hs : m.map (fun e => e.2.make e.1) = (ds.map ClassDesc.tree).map fun n => [n] := by
        rw [hmd, List.map_map, List.map_map]
        exact List.map_congr_left fun d _ => entry_make d
      rw [hp, hs, Props.schemaProton_eq, Props.envelopeProton_eq]
    · have h2 := propertiesOf_entries ds
      have : (MWr.object o WState.init).2.length = propertiesOf (ds.map ClassDesc.entry) := this.symm
      omega
  · rw [he] at h; simp at h
  · rw [he] at h; simp at h

end Corda
