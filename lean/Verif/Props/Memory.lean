import Verif.Lemmas.Memory

/-
C111: the memory that the library takes.
-/

namespace Corda.Props
open Corda Corda.Spec

variable (sys : System) (enc : List Node → List Byte)

/-! ### What holds at every point of a program -/

/-- The arrays taken are those of the `CordaBytes` that are left, each once; the keys of every schema are different. -/
private structure Sound (s : Running) : Prop where
  arrays : s.heap.arrays.Perm (owned s.bytes)
  once : s.heap.arrays.Nodup
  old : ∀ a ∈ s.heap.arrays, a < s.heap.made
  keys : ∀ w, some w ∈ s.writers → (w.schemas.map Prod.fst).Nodup

private theorem owned_append (as bs : List (Option (Nat × CordaBytes))) : owned (as ++ bs) = owned as ++ owned bs := by
  induction as with
  | nil => rfl
  | cons a as ih =>
    match a with
    | none => simp only [List.cons_append, owned, ih]
    | some (x, _) => simp only [List.cons_append, owned, ih]

private theorem owned_set (bs : List (Option (Nat × CordaBytes))) (i a : Nat) (cb : CordaBytes) (h : bs[i]? = some (some (a, cb))) :
    (owned bs).Perm (a :: owned (bs.set i none)) := by
  induction bs generalizing i with
  | nil => simp at h
  | cons b bs ih =>
    cases i with
    | zero =>
      simp only [List.getElem?_cons_zero, Option.some.injEq] at h
      subst h
      exact List.Perm.refl _
    | succ i =>
      simp only [List.getElem?_cons_succ] at h
      have := ih i h
      match b with
      | none => simpa only [List.set_cons_succ, owned] using this
      | some (x, _) =>
        simp only [List.set_cons_succ, owned]
        exact (List.Perm.cons _ this).trans (List.Perm.swap _ _ _)

private theorem sound_array {s : Running} (hs : Sound s) (cb : CordaBytes) :
    Sound { s with bytes := s.bytes ++ [some (s.heap.made, cb)], heap := s.heap.array } where
  arrays := by
    simp only [Heap.array, owned_append, owned]
    exact (List.Perm.cons _ hs.arrays).trans (List.perm_append_comm (l₁ := [s.heap.made]))
  once := by
    simp only [Heap.array]
    exact List.nodup_cons.2 ⟨fun h => absurd (hs.old _ h) (Nat.lt_irrefl _), hs.once⟩
  old := by
    intro a ha
    simp only [Heap.array, List.mem_cons] at ha ⊢
    rcases ha with rfl | ha
    · omega
    · have := hs.old a ha; omega
  keys := hs.keys

private theorem sound_grow {s : Running} (hs : Sound s) (ws : List (Option WState)) (bs : List (Option (List Node))) (ts : List TreeOf)
    (hw : ∀ w, some w ∈ ws → (w.schemas.map Prod.fst).Nodup) :
    Sound { s with writers := ws, blobs := bs, heap := s.heap.grow ts } :=
  ⟨hs.arrays, hs.once, hs.old, hw⟩

private theorem mem_set {α : Type} {l : List α} {i : Nat} {a b : α} (h : b ∈ l.set i a) : b ∈ l ∨ b = a := by
  exact List.mem_or_eq_of_mem_set h

private theorem sound_step {s : Running} (hs : Sound s) (a : Step) : Sound (s.step sys enc a).2 := by
  cases a with
  | writer =>
    refine sound_grow hs _ _ _ fun w hw => ?_
    simp only [List.mem_append, List.mem_singleton, Option.some.injEq] at hw
    rcases hw with hw | rfl
    · exact hs.keys w hw
    · exact List.nodup_nil
  | write i o =>
    simp only [Running.step]
    split
    · rename_i w hw
      refine sound_grow hs _ _ _ fun w' hw' => ?_
      rcases mem_set hw' with h | h
      · exact hs.keys w' h
      · obtain ⟨h1, h2⟩ := counts_object o w
        simp only [Option.some.injEq] at h
        rw [h, h1]
        exact (h2 (hs.keys w (List.mem_of_getElem? hw))).1
    · exact hs
  | make i =>
    simp only [Running.step]
    split
    · exact sound_grow hs _ _ _ hs.keys
    · exact hs
  | encode i =>
    simp only [Running.step]
    split
    · exact sound_array hs _
    · exact hs
  | load cfg path =>
    simp only [Running.step]
    split
    · exact sound_array hs _
    · exact hs
    · exact hs
  | decode i =>
    simp only [Running.step]
    split
    · split
      · exact sound_grow hs _ _ _ hs.keys
      · exact sound_grow hs _ _ _ hs.keys
      · exact sound_grow hs _ _ _ hs.keys
    · exact hs
  | copy i =>
    simp only [Running.step]
    split
    · exact ⟨hs.arrays, hs.once, hs.old, hs.keys⟩
    · exact hs
  | endWriter i =>
    simp only [Running.step]
    split
    · refine ⟨hs.arrays, hs.once, hs.old, fun w hw => ?_⟩
      rcases mem_set hw with h | h
      · exact hs.keys w h
      · simp at h
    · exact hs
  | endBlob i =>
    simp only [Running.step]
    split
    · exact ⟨hs.arrays, hs.once, hs.old, hs.keys⟩
    · exact hs
  | endBytes i =>
    simp only [Running.step]
    split
    · rename_i x cb hb
      split
      · rename_i hx
        refine ⟨?_, hs.once.erase x, fun y hy => hs.old y (List.mem_of_mem_erase hy), hs.keys⟩
        have := (hs.arrays.trans (owned_set s.bytes i x cb hb)).erase x
        simpa using this
      · exact hs
    · exact hs

private theorem sound_run (as : List Step) : ∀ {s t : Running}, Sound s → s.run sys enc as = .ok t → Sound t := by
  induction as with
  | nil =>
    intro s t hs h
    simp only [Running.run, Res.ok.injEq] at h
    exact h ▸ hs
  | cons a as ih =>
    intro s t hs h
    have hst := sound_step sys enc hs a
    simp only [Running.run] at h
    split at h
    · simp at h
    · rename_i r s' hne he
      rw [he] at hst
      exact ih hst h

private theorem sound_start : Sound Running.start := ⟨List.Perm.refl _, List.nodup_nil, by simp [Running.start], by simp [Running.start]⟩

/-! ### C111 -/

/-- **C111 (partial).** At every point of every program, whatever exceptions it has caught, the arrays that are taken are exactly those of the `CordaBytes` that are
left, each once. Missing: the same of the `pn_data_t`, which is false, see `C111_violated`. -/
theorem C111_arrays_partial (as : List Step) (s : Running) (h : Running.start.run sys enc as = .ok s) :
    s.heap.arrays.Perm (owned s.bytes) ∧ s.heap.arrays.Nodup :=
  ⟨(sound_run sys enc as sound_start h).arrays, (sound_run sys enc as sound_start h).once⟩

private theorem owned_none (bs : List (Option (Nat × CordaBytes))) (h : ∀ b ∈ bs, b = none) : owned bs = [] := by
  induction bs with
  | nil => rfl
  | cons b bs ih =>
    have := h b (by simp)
    subst this
    exact ih fun x hx => h x (by simp [hx])

/-- **C111 (partial).** When all objects are destroyed no array is left. -/
theorem C111_all_arrays_partial (as : List Step) (s : Running) (h : Running.start.run sys enc as = .ok s) (he : AllEnded s) :
    s.heap.arrays = [] := by
  have := (C111_arrays_partial sys enc as s h).1
  rw [owned_none _ he.2.2] at this
  exact this.eq_nil

/-- **C111.** Nothing is given back twice: whenever an object is left, destroying it is defined. -/
theorem C111_ends (as : List Step) (s : Running) (h : Running.start.run sys enc as = .ok s) (i : Nat) :
    ((∃ w, s.writers[i]? = some (some w)) → (s.step sys enc (.endWriter i)).1 = .ok ())
    ∧ ((∃ b, s.blobs[i]? = some (some b)) → (s.step sys enc (.endBlob i)).1 = .ok ())
    ∧ ((∃ b, s.bytes[i]? = some (some b)) → (s.step sys enc (.endBytes i)).1 = .ok ()) := by
  refine ⟨?_, ?_, ?_⟩
  · rintro ⟨w, hw⟩; simp only [Running.step, hw]
  · rintro ⟨w, hw⟩; simp only [Running.step, hw]
  · rintro ⟨⟨a, cb⟩, hb⟩
    have hs := sound_run sys enc as sound_start h
    have : a ∈ s.heap.arrays := hs.arrays.mem_iff.2 ((owned_set s.bytes i a cb hb).mem_iff.2 (by simp))
    simp only [Running.step, hb, if_pos this]

/-- **C111.** No step gives back a `pn_data_t`. -/
theorem C111_kept (s : Running) (a : Step) : ∃ new, (s.step sys enc a).2.heap.trees = new ++ s.heap.trees := by
  cases a with
  | writer => exact ⟨[.payload], rfl⟩
  | write i o =>
    simp only [Running.step]
    split
    · exact ⟨_, rfl⟩
    · exact ⟨[], rfl⟩
  | make i =>
    simp only [Running.step]
    split
    · exact ⟨_, rfl⟩
    · exact ⟨[], rfl⟩
  | encode i =>
    simp only [Running.step]
    split <;> exact ⟨[], rfl⟩
  | load cfg path =>
    simp only [Running.step]
    split <;> exact ⟨[], rfl⟩
  | decode i =>
    simp only [Running.step]
    split
    · split <;> exact ⟨[.decoded], rfl⟩
    · exact ⟨[], rfl⟩
  | copy i =>
    simp only [Running.step]
    split <;> exact ⟨[], rfl⟩
  | endWriter i =>
    simp only [Running.step]
    split <;> exact ⟨[], rfl⟩
  | endBlob i =>
    simp only [Running.step]
    split <;> exact ⟨[], rfl⟩
  | endBytes i =>
    simp only [Running.step]
    split
    · split <;> exact ⟨[], rfl⟩
    · exact ⟨[], rfl⟩

/-- **C111.** Writing an object to a blob, also if that throws, takes one `pn_data_t` for each property that was not described before. -/
theorem C111_write (as : List Step) (s : Running) (h : Running.start.run sys enc as = .ok s) (i : Nat) (w : WState)
    (hi : s.writers[i]? = some (some w)) (o : Obj) :
    ∃ w', (s.step sys enc (.write i o)).2.writers[i]? = some (some w') ∧
      (s.step sys enc (.write i o)).2.heap.trees.length + propertiesOf w.schemas = s.heap.trees.length + propertiesOf w'.schemas := by
  have hs := sound_run sys enc as sound_start h
  obtain ⟨h1, h2⟩ := counts_object o w
  have h3 := (h2 (hs.keys w (List.mem_of_getElem? hi))).2
  have hlt : i < s.writers.length := by
    rw [List.getElem?_eq_some_iff] at hi
    exact hi.1
  refine ⟨(MWr.object o w).1.2, ?_, ?_⟩
  · simp only [Running.step, hi, List.getElem?_set_self hlt]
  · simp only [Running.step, hi, Heap.grow, List.length_append, h1, h3]
    omega

/-- **C111.** Making an `AMQPBlob` of it, each time, takes one for each class and two more. -/
theorem C111_make (s : Running) (i : Nat) (w : WState) (hi : s.writers[i]? = some (some w)) :
    (s.step sys enc (.make i)).2.heap.trees.length = s.heap.trees.length + w.schemas.length + 2 := by
  simp only [Running.step, hi, Heap.grow, WState.toBlobTrees, List.length_append, List.length_map, List.length_cons, List.length_nil]
  omega

private theorem run_ok (s : Running) (a : Step) (as : List Step) (s' : Running) (h : s.step sys enc a = (.ok (), s')) :
    s.run sys enc (a :: as) = s'.run sys enc as := by
  rw [Running.run, h]

private theorem getElem?_last {α : Type} (l : List α) (x : α) : (l ++ [x])[l.length]? = some x := by
  simp

private theorem set_last {α : Type} (l : List α) (x y : α) : (l ++ [x]).set l.length y = l ++ [y] := by
  simp

/-- One round of `serialiseAll`. -/
private theorem round (s : Running) (hw : s.writers.length = s.blobs.length) (o : Obj) (os : List Obj) (ns : List Node) (h : serialise o = .ok ns) :
    ∃ ds ts, Describes o ds ∧ serialise o = .ok [envelopeTree (objTree o) (schemaTree (ds.map ClassDesc.tree)) (.mk .null [])]
      ∧ ts.length = 3 + descriptions ds
      ∧ s.run sys enc (serialiseAll s.writers.length (o :: os))
        = Running.run sys enc ⟨s.writers ++ [none], s.blobs ++ [none], s.bytes, s.heap.grow ts⟩ (serialiseAll (s.writers.length + 1) os) := by
  obtain ⟨ds, m, hds, he, ho, hl, hc⟩ := object_new o ns h
  have hc1 := (counts_object o WState.init).1
  rw [ho] at hc1
  refine ⟨ds, m.toBlobTrees ++ ((MWr.object o WState.init).2 ++ [.payload]), hds, he, ?_, ?_⟩
  · simp only [WState.toBlobTrees, List.length_append, List.length_map, List.length_cons, List.length_nil, hl]
    omega
  rw [serialiseAll, run_ok sys enc s .writer _ _ rfl]
  rw [run_ok sys enc _ (.write s.writers.length o) _
    ⟨s.writers ++ [some m], s.blobs, s.bytes, (s.heap.grow [.payload]).grow (MWr.object o WState.init).2⟩ (by
      simp only [Running.step, getElem?_last, hc1, set_last])]
  rw [run_ok sys enc _ (.make s.writers.length) _
    ⟨s.writers ++ [some m], s.blobs ++ [some m.toBlob], s.bytes,
      ((s.heap.grow [.payload]).grow (MWr.object o WState.init).2).grow m.toBlobTrees⟩ (by
      simp only [Running.step, getElem?_last])]
  rw [run_ok sys enc _ (.endWriter s.writers.length) _
    ⟨s.writers ++ [none], s.blobs ++ [some m.toBlob], s.bytes,
      ((s.heap.grow [.payload]).grow (MWr.object o WState.init).2).grow m.toBlobTrees⟩ (by
      simp only [Running.step, getElem?_last, set_last])]
  rw [run_ok sys enc _ (.endBlob s.writers.length) _
    ⟨s.writers ++ [none], s.blobs ++ [none], s.bytes,
      ((s.heap.grow [.payload]).grow (MWr.object o WState.init).2).grow m.toBlobTrees⟩ (by
      simp only [Running.step, hw, getElem?_last, set_last])]
  simp only [Heap.grow, List.append_assoc]

private theorem rounds (os : List Obj) (hos : ∀ o ∈ os, ∃ ns, serialise o = .ok ns) : ∀ (s : Running), s.writers.length = s.blobs.length →
    AllEnded s → ∃ t dss, s.run sys enc (serialiseAll s.writers.length os) = .ok t ∧ AllEnded t
      ∧ SchemasOf os dss
      ∧ t.heap.trees.length = s.heap.trees.length + (dss.map fun ds => 3 + descriptions ds).sum := by
  induction os with
  | nil => intro s hw he; exact ⟨s, [], rfl, he, trivial, by simp⟩
  | cons o os ih =>
    intro s hw he
    obtain ⟨ns, hns⟩ := hos o (by simp)
    obtain ⟨ds, ts, hd, hse, hl, hr⟩ := round sys enc s hw o os ns hns
    obtain ⟨t, dss, h1, h2, h3, h4⟩ := ih (fun x hx => hos x (by simp [hx]))
      ⟨s.writers ++ [none], s.blobs ++ [none], s.bytes, s.heap.grow ts⟩ (by simp [hw]) (by
        refine ⟨?_, ?_, he.2.2⟩
        · intro w hw'
          simp only [List.mem_append, List.mem_singleton] at hw'
          exact hw'.elim (he.1 w) id
        · intro w hw'
          simp only [List.mem_append, List.mem_singleton] at hw'
          exact hw'.elim (he.2.1 w) id)
    simp only [List.length_append, List.length_singleton] at h1
    refine ⟨t, ds :: dss, by rw [hr]; exact h1, h2, ⟨⟨hd, hse⟩, h3⟩, ?_⟩
    simp only [h4, Heap.grow, List.length_append, hl, List.map_cons, List.sum_cons]
    omega

/-- **C111.** A program that serialises objects and destroys all it made is left with three `pn_data_t` for each object and one for each class and each property
that the schema in the blob of that object describes. -/
theorem C111_serialised (os : List Obj) (hos : ∀ o ∈ os, ∃ ns, serialise o = .ok ns) :
    ∃ t dss, Running.start.run sys enc (serialiseAll 0 os) = .ok t ∧ AllEnded t
      ∧ SchemasOf os dss
      ∧ t.heap.trees.length = (dss.map fun ds => 3 + descriptions ds).sum := by
  obtain ⟨t, dss, h1, h2, h3, h4⟩ := rounds sys enc os hos Running.start rfl ⟨by simp [Running.start], by simp [Running.start], by simp [Running.start]⟩
  exact ⟨t, dss, h1, h2, h3, by rw [h4]; simp [Running.start]⟩

private theorem schemas_length : ∀ (os : List Obj) (dss : List (List ClassDesc)), SchemasOf os dss → os.length = dss.length
  | [], [], _ => rfl
  | _ :: os, _ :: dss, h => by
    have := schemas_length os dss h.2
    simp [this]
  | [], _ :: _, h => h.elim
  | _ :: _, [], h => h.elim

/-- **C111.** So there is no bound: the same object serialised often enough leaves any number behind. -/
theorem C111_grows (o : Obj) (ns : List Node) (h : serialise o = .ok ns) (n : Nat) :
    ∃ as t, Running.start.run sys enc as = .ok t ∧ AllEnded t ∧ n ≤ t.heap.trees.length := by
  obtain ⟨t, dss, h1, h2, h3, h4⟩ := C111_serialised sys enc (List.replicate n o) (by
    intro x hx
    rw [List.eq_of_mem_replicate hx]
    exact ⟨ns, h⟩)
  refine ⟨_, t, h1, h2, ?_⟩
  have hl : dss.length = n := by
    rw [← schemas_length _ _ h3, List.length_replicate]
  rw [h4, ← hl]
  clear h1 h2 h3 h4 hl
  induction dss with
  | nil => simp
  | cons d ds ih => simp only [List.map_cons, List.sum_cons, List.length_cons]; omega

/-- **C111.** Reading a file into a blob and destroying both leaves one `pn_data_t`, and no array. -/
theorem C111_read (cfg : AMQPConfig) (path : Str) (cb : CordaBytes) (c : Cursor) (hl : CordaBytes.load cfg (sys.file path) = .ok cb)
    (hc : AMQPBlob.make sys cb = .ok c) :
    ∃ t, Running.start.run sys enc [.load cfg path, .decode 0, .endBytes 0, .endBlob 0] = .ok t ∧ AllEnded t
      ∧ t.heap.trees = [.decoded] ∧ t.heap.arrays = [] := by
  refine ⟨⟨[], [none], [none], ⟨[.decoded], [], 1⟩⟩, ?_, ⟨by simp, by simp, by simp⟩, rfl, rfl⟩
  rw [run_ok sys enc _ (.load cfg path) _ ⟨[], [], [some (0, cb)], ⟨[], [0], 1⟩⟩ (by simp only [Running.step, hl]; rfl)]
  rw [run_ok sys enc _ (.decode 0) _ ⟨[], [some c.forest], [some (0, cb)], ⟨[.decoded], [0], 1⟩⟩ (by simp [Running.step, hc, Heap.grow])]
  rw [run_ok sys enc _ (.endBytes 0) _ ⟨[], [some c.forest], [none], ⟨[.decoded], [], 1⟩⟩ (by simp [Running.step])]
  rw [run_ok sys enc _ (.endBlob 0) _ ⟨[], [none], [none], ⟨[.decoded], [], 1⟩⟩ (by simp [Running.step])]
  rfl

/-- An object with one number. -/
def leaky : Obj := .comp "A".toList "f".toList [.prim "a".toList false (.int 1)]

/-- **C111 is violated.** An object with one number serialised once: all objects of the library are destroyed, and five `pn_data_t` are left. -/
theorem C111_violated (sys : System) (enc : List Node → List Byte) :
    ∃ t, Running.start.run sys enc (serialiseAll 0 [leaky]) = .ok t ∧ AllEnded t ∧ t.heap.trees.length = 5
      ∧ t.heap.trees = [.type ("A".toList, "f".toList), .schema, .envelope, .field ("A".toList, "f".toList) "a".toList, .payload] := by
  refine ⟨_, rfl, ⟨?_, ?_, ?_⟩, ?_, ?_⟩
  · simp [Running.start]
  · simp [Running.start]
  · simp [Running.start]
  · rfl
  · rfl

#print axioms C111_arrays_partial
#print axioms C111_all_arrays_partial
#print axioms C111_ends
#print axioms C111_kept
#print axioms C111_write
#print axioms C111_make
#print axioms C111_serialised
#print axioms C111_grows
#print axioms C111_read
#print axioms C111_violated

end Corda.Props
