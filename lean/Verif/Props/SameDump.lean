import Verif.Props.Bulk
import Verif.Props.Form

/-
C108, of files: the schema dumper makes the same of the files of two objects of the same form.
-/

namespace Corda.Props
open Corda Corda.Spec

private theorem inside_of_within {m n : Node} (h : Spec.Within m n) : Inside m n := by
  induction h with
  | self => exact .here _
  | part hk _ ih => exact inside_trans ih (inside_kid hk)

private theorem small_texts {n : Node} (h : mass n < 2 ^ 63) : SmallTexts n := by
  intro m hm s hs
  have hi := inside_of_within hm
  have h1 := solid_inside hi (by rcases hs with hs | hs <;> simp only [solid, hs])
  have h2 := ink_lt m
  rcases hs with hs | hs <;> rw [hs, ink] at h2 <;> (show s.length < _; omega)

private theorem load_dump {bytes : List Byte} {n : Node} (he : Encodes bytes n) (hl : bytes.length < 2 ^ 57) (path : Str)
    (dump : Cursor → Res Str) :
    loadAndDump {} (holding (magic ++ 0 :: bytes)) path dump = (dump (Cursor.root n)).bind fun s => .ok (.exit 0 (s ++ ['\n'])) := by
  have hb : Wire.decode bytes = some (bytes.length, n) := by have := C71_decoded he []; rwa [List.append_nil] at this
  rw [loadAndDump_file (.inr rfl) (hdr := magic) (e := 0) (rest := bytes) magic_length rfl
    (by simp only [List.length_append, List.length_cons, magic_length]; omega) dump]
  rw [if_pos (.inr rfl), if_pos (by decide), if_pos rfl]
  show (match Wire.decode bytes with
    | some (used, n) => if used = bytes.length then (dump (Cursor.root n)).bind fun s => Res.ok (Ended.exit 0 (s ++ ['\n'])) else .ub "assert"
    | none => .ub "assert") = _
  rw [hb]
  simp only [if_true]

/-- **C108, of files**: save two objects of the same form, each in any encoding.  Whatever it is asked for, the schema dumper prints the same for
both files and ends in the same way. -/
theorem C108_files (o o' : Obj) (h : form o = form o') (n n' : Node) (hs : serialise o = .ok [n]) (hs' : serialise o' = .ok [n'])
    (bytes bytes' : List Byte) (he : Encodes bytes n) (he' : Encodes bytes' n') (hl : bytes.length < 2 ^ 57) (hl' : bytes'.length < 2 ^ 57)
    (args : List Str) :
    schemaDumper (holding (magic ++ 0 :: bytes)) args = schemaDumper (holding (magic ++ 0 :: bytes')) args := by
  have ht : ∀ {b : List Byte} {m : Node}, Encodes b m → b.length < 2 ^ 57 → SmallTexts m := by
    intro b m hb hl
    have hd : Wire.decode b = some (b.length, m) := by have := C71_decoded hb []; rwa [List.append_nil] at this
    have := C98_decoded hd
    exact small_texts (by omega)
  unfold schemaDumper
  split
  · simp only [holding]
    change (if _ then catchRuntime (loadAndDump {} (holding (magic ++ 0 :: bytes)) _ _) else if _ then catchRuntime (loadAndDump {} (holding (magic ++ 0 :: bytes)) _ _) else _)
      = (if _ then catchRuntime (loadAndDump {} (holding (magic ++ 0 :: bytes')) _ _) else if _ then catchRuntime (loadAndDump {} (holding (magic ++ 0 :: bytes')) _ _) else _)
    rw [load_dump he hl, load_dump he' hl', load_dump he hl, load_dump he' hl', C108_dumped o o' h n n' hs hs' (ht he hl) (ht he' hl'),
      C108_dumped_raw o o' h n n' hs hs']
  · rfl

/-! ### Examples -/

private def counted (v : Int) : Obj := .comp "A".toList "fp".toList [.prim "x".toList false (.int v)]

/-- Two objects with different numbers, saved. -/
example : ∃ n n', serialise (counted 1) = .ok [n] ∧ serialise (counted 70000) = .ok [n'] ∧ form (counted 1) = form (counted 70000) ∧ n ≠ n' := by
  obtain ⟨ns, h⟩ := ((C30_outcome (counted 1)).1).2 ⟨by simp [counted, NoCharPointers, NoCharPointersMembers, NoCharPointersMember, Prim.type], by decide⟩
  obtain ⟨ns', h'⟩ := ((C30_outcome (counted 70000)).1).2 ⟨by simp [counted, NoCharPointers, NoCharPointersMembers, NoCharPointersMember, Prim.type], by decide⟩
  obtain ⟨s, e, e'⟩ := C108_schema (counted 1) (counted 70000) rfl _ _ h h'
  subst e
  subst e'
  refine ⟨_, _, h, h', rfl, fun hne => ?_⟩
  have := congrArg (fun n : Node => n.kids[1]?.bind fun m => m.kids[0]?) hne
  revert this
  simp [envelopeTree, element, Node.kids, counted, objTree]
  decide

end Corda.Props

#print axioms Corda.Props.C108_files
