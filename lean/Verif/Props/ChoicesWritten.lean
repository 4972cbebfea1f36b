import Verif.Props.Choices
import Verif.Props.Tools
import Verif.Props.Writer
import Verif.Spec.ChoicesWritten

/-
C116, of processes and of objects.
-/

namespace Corda.Props
open Corda Corda.Spec

private theorem sameProcess_refl (e : Ended) : SameProcess e e := ⟨fun _ _ => .rfl, .rfl, .rfl⟩

private theorem sameProcess_ub (w w' : String) : SameProcess (.ub w) (.ub w') := by
  refine ⟨fun _ _ => ⟨fun h => ?_, fun h => ?_⟩, ⟨fun h => ?_, fun h => ?_⟩, ⟨fun _ => ⟨_, rfl⟩, fun _ => ⟨_, rfl⟩⟩⟩ <;> cases h

/-- A file from which a blob was made holds it. -/
private theorem holds {sys : System} (hs : FilesFit sys) {path : Str} {cb : CordaBytes} {c : Cursor}
    (hl : CordaBytes.load { ignoreHeader := true } (sys.file path) = .ok cb) (he : cb.encoding = 0) (hb : AMQPBlob.make sys cb = .ok c) :
    ∃ n, c = Cursor.root n ∧ HoldsBlobAnyHeader sys path n := by
  cases hf : sys.file path with
  | none => rw [hf] at hl; cases hl
  | some b =>
    rw [hf] at hl
    by_cases h8 : b.length < 8
    · exact absurd hl (load_short_not_ok (.inr rfl) h8 cb)
    · have hb7 : (b.take 7).length = 7 := by rw [List.length_take]; omega
      cases hd : b.drop 7 with
      | nil => have := congrArg List.length hd; simp at this; omega
      | cons e rest =>
        have hsplit : b = b.take 7 ++ e :: rest := by rw [← hd, List.take_append_drop]
        rw [hsplit, load_eq { ignoreHeader := true } (.inr rfl) _ hb7 e rest (by rw [← hsplit]; exact hs path b hf), if_pos (.inl rfl)] at hl
        split at hl
        · cases hl
          simp only at he
          subst he
          unfold AMQPBlob.make at hb
          split at hb
          · rename_i used n hdec
            split at hb
            · rename_i hu
              cases hb
              simp only at hdec hu
              exact ⟨n, rfl, b.take 7, rest, hb7, by rw [hf, ← hsplit], by rw [hdec, hu]⟩
            · cases hb
          · cases hb
        · split at hl <;> cases hl

/-- **C116, of processes**, partial: if no map in the payload has entries, compilers that evaluate arguments in different orders make blob
inspectors that end in the same way, with the same output, whatever else is in the file.  Missing: maps with entries. -/
theorem C116_tool_partial (sys : System) (hs : FilesFit sys) (args : List Str)
    (hn : ∀ path n p, args = [path] → HoldsBlobAnyHeader sys path n → payloadIn n = .ok (some p) → NoEntries p) :
    SameProcess (blobInspector true sys args) (blobInspector false sys args) := by
  unfold blobInspector
  split
  · rename_i path
    split
    · exact sameProcess_refl _
    · unfold loadAndDump
      cases hl : CordaBytes.load { ignoreHeader := true } (sys.file path) with
      | throw m => exact sameProcess_refl _
      | ub m => exact sameProcess_refl _
      | ok cb =>
        simp only [Res.bind_eq, Res.bind]
        split
        · rename_i he
          cases hb : AMQPBlob.make sys cb with
          | throw m => exact sameProcess_refl _
          | ub m => exact sameProcess_refl _
          | ok c =>
            obtain ⟨n, rfl, hold⟩ := holds hs hl he hb
            obtain ⟨h1, h2, h3⟩ := C116_no_entries_partial (Cursor.root n) n rfl fun p hp => hn path n p rfl hold hp
            simp only
            cases ht : (inspect true (Cursor.root n)).1 with
            | ok s => rw [(h1 s).1 ht]; exact sameProcess_refl _
            | throw m =>
              have := h2.1 (by rw [ht]; trivial)
              cases hf : (inspect false (Cursor.root n)).1 with
              | throw m' => exact sameProcess_refl _
              | ok s => rw [hf] at this; exact this.elim
              | ub m => rw [hf] at this; exact this.elim
            | ub m =>
              have := h3.1 (by rw [ht]; trivial)
              cases hf : (inspect false (Cursor.root n)).1 with
              | ub m' => exact sameProcess_ub m m'
              | ok s => rw [hf] at this; exact this.elim
              | throw m => rw [hf] at this; exact this.elim
        · exact sameProcess_refl _
  · exact sameProcess_refl _

private theorem inside_mk {m : Node} {a : Atom} {ks : List Node} (h : Inside m (.mk a ks)) : m = .mk a ks ∨ ∃ k ∈ ks, Inside m k := by
  cases h with
  | here => exact .inl rfl
  | deeper _ _ k hk h => exact .inr ⟨k, hk, h⟩

private theorem noEntries_mk {a : Atom} {ks : List Node} (ha : a = .map → ks = []) (h : ∀ k ∈ ks, NoEntries k) : NoEntries (.mk a ks) := by
  intro m hi hm
  rcases inside_mk hi with rfl | ⟨k, hk, hi⟩
  · exact ha hm
  · exact h k hk m hi hm

private theorem noEntries_described {f : Str} {a : Atom} {ks : List Node} (ha : a = .map → ks = []) (h : ∀ k ∈ ks, NoEntries k) :
    NoEntries (describedNode f a ks) := by
  refine noEntries_mk (fun h => by cases h) fun k hk => ?_
  simp only [List.mem_cons, List.not_mem_nil, or_false] at hk
  rcases hk with rfl | rfl
  · exact noEntries_mk (fun _ => rfl) fun k hk => by cases hk
  · exact noEntries_mk ha h

private theorem noEntries_prim (v : Prim) : NoEntries (primNode v) := by
  cases v <;> exact noEntries_mk (fun _ => rfl) fun k hk => by cases hk

mutual

private theorem noEntries_obj : (o : Obj) → EmptyMaps o → NoEntries (objTree o)
  | .comp _ _ ms, h => by
    rw [objTree]
    rw [EmptyMaps] at h
    exact noEntries_described (fun h => by cases h) (noEntries_members ms h)
  | .list _ _ es, h => by
    rw [objTree]
    rw [EmptyMaps] at h
    exact noEntries_described (fun h => by cases h) (noEntries_elems es h)
  | .map _ _ es, h => by
    rw [objTree]
    rw [EmptyMaps] at h
    subst h
    exact noEntries_described (fun _ => rfl) fun k hk => by cases hk

private theorem noEntries_members : (ms : List Member) → EmptyMapsMembers ms → ∀ k ∈ memberTrees ms, NoEntries k
  | [], _, k, hk => by cases hk
  | m :: ms, h, k, hk => by
    rw [EmptyMapsMembers] at h
    rw [memberTrees, List.mem_cons] at hk
    rcases hk with rfl | hk
    · exact noEntries_member m h.1
    · exact noEntries_members ms h.2 k hk

private theorem noEntries_member : (m : Member) → EmptyMapsMember m → NoEntries (memberTree m)
  | .prim _ _ v, _ => by rw [memberTree]; exact noEntries_prim v
  | .nullPrim _ _, _ => by rw [memberTree]; exact noEntries_mk (fun _ => rfl) fun k hk => by cases hk
  | .obj _ _ _ o, h => by rw [memberTree]; rw [EmptyMapsMember] at h; exact noEntries_obj o h
  | .nullObj _ _, _ => by rw [memberTree]; exact noEntries_mk (fun _ => rfl) fun k hk => by cases hk

private theorem noEntries_elems : (es : List Elem) → EmptyMapsElems es → ∀ k ∈ elemTrees es, NoEntries k
  | [], _, k, hk => by cases hk
  | e :: es, h, k, hk => by
    rw [EmptyMapsElems] at h
    rw [elemTrees, List.mem_cons] at hk
    rcases hk with rfl | hk
    · exact noEntries_elem e h.1
    · exact noEntries_elems es h.2 k hk

private theorem noEntries_elem : (e : Elem) → EmptyMapsElem e → NoEntries (elemTree e)
  | .prim v, _ => by rw [elemTree]; exact noEntries_prim v
  | .nullPrim _, _ => by rw [elemTree]; exact noEntries_mk (fun _ => rfl) fun k hk => by cases hk
  | .obj o, h => by rw [elemTree]; rw [EmptyMapsElem] at h; exact noEntries_obj o h

end

/-- **C116, of objects the library wrote**, partial: what is shown of an object in which all maps are empty does not depend on the order, however
many lists and objects are in it.  Missing: maps with entries. -/
theorem C116_written_partial (o : Obj) (h : EmptyMaps o) (n : Node) (hw : serialise o = .ok [n]) (c : Cursor) (hc : c.cur = some n) :
    SameResult (inspect true c).1 (inspect false c).1 := by
  obtain ⟨ts, e⟩ := C30_blob o _ hw
  cases e
  refine C116_no_entries_partial c _ hc fun p hp => ?_
  have : p = objTree o := by
    have hq : payloadIn (envelopeTree (objTree o) (schemaTree ts) (.mk .null [])) = .ok (some (objTree o)) := rfl
    rw [hq] at hp
    simp only [Res.ok.injEq, Option.some.injEq] at hp
    exact hp.symm
  subst this
  exact noEntries_obj o h

/-- An object with an empty map and a list in it; one with an entry. -/
example : EmptyMaps (.comp "A".toList "fp".toList [.obj "m".toList "M".toList false (.map "M".toList "fpM".toList []),
      .obj "l".toList "L".toList false (.list "L".toList "fpL".toList [.prim (.int 1), .nullPrim .int])])
    ∧ ¬ EmptyMaps (.list "L".toList "fpL".toList [.obj (.map "M".toList "fpM".toList [.mk (.prim (.int 1)) (.prim (.int 2))])]) := by
  simp [EmptyMaps, EmptyMapsMembers, EmptyMapsMember, EmptyMapsElems, EmptyMapsElem]

/-- Nothing is said to be the same that is not. -/
example : ¬ SameProcess (.exit 0 ['a']) (.exit 0 ['b']) ∧ ¬ SameProcess .terminated (.ub "") ∧ SameProcess (.ub "a") (.ub "b") :=
  ⟨fun h => by simpa using (h.exit 0 ['a']).1 rfl, fun h => by simpa using h.aborted.1 rfl, sameProcess_ub _ _⟩

end Corda.Props

#print axioms Corda.Props.C116_tool_partial
#print axioms Corda.Props.C116_written_partial
