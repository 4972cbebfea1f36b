import Verif.Lemmas.Meaning
import Verif.Props.Descriptors
import Verif.Props.RawDump
import Verif.Props.SchemaDump
import Verif.Props.Readers

/-
C25 and C26 for whole dumps: neither the data nor the position change.
-/

namespace Corda.Props
open Corda Prog Spec FProg

/-- The reader of an envelope succeeds only on a node. -/
private theorem envelope_on {c : Cursor} {x : Schema × Str} (h : (readEnvelope c).1 = .ok x) : c.cur.isSome = true := by
  cases hc : c.cur with
  | some n => rfl
  | none =>
    have hd : c.type ≠ .described := by simp [Cursor.type, hc]
    have h1 : isDescribed c = (.ok false, c) := by simp [isDescribed, look, hd]
    unfold readEnvelope at h
    rw [bind_of_ok h1] at h
    simp [Prog.ub] at h

private theorem payload_cursor {cu : Customs} (hcu : ∀ k s n, Scoped (cu k s n)) (lf : Bool) (F : Factory) (s : Schema)
    (i : Nat) (c : Cursor) (hc : c.cur.isSome = true) : (dumpPayload cu lf F s i c).2 = c := by
  have hs : Scoped (do
      attestList
      let n ← look Cursor.getList
      if n = 3 then
        autoEnter (do
          let v ← dump cu lf F s (c.fuel + 1) i (some parsedName)
          pure (v.dump ++ mapClose))
      else Prog.ub "assert" : Prog Str) :=
    scoped_guard_bind (scoped_attest _ _) guard_list fun _ => scopedOn_bind (scoped_look _).on fun n =>
      scopedOn_ite (scopedOn_autoEnter (scoped_bind (scoped_dump hcu _ _ _) fun _ => scoped_pure _)) (scoped_ub _).on
  unfold dumpPayload
  rw [autoEnter_eq hs hc]

/-- **C26 for the contents**: whatever the tree, the position, the factory, the order of evaluation and the outcome, dumping
the contents puts the cursor back where it was, provided the custom serialisers stay in their level. -/
theorem C26_contents_cursor (cu : Customs) (hcu : ∀ k s n, Scoped (cu k s n)) (leftFirst : Bool) (F : Factory) (c : Cursor) :
    (dumpContents cu leftFirst F c).1.2 = c := by
  have hr := C26_envelope_cursor c
  unfold dumpContents
  split
  · rename_i m c' h; rw [h] at hr; exact hr
  · rename_i m c' h; rw [h] at hr; exact hr
  · rename_i s d c' h
    have hs := envelope_on (x := (s, d)) (by rw [h])
    rw [h] at hr
    simp only at hr
    subst hr
    split
    · rfl
    · rfl
    · split
      · rfl
      · exact payload_cursor hcu _ _ _ _ _ hs

/-- **C26 for the blob inspector.** -/
theorem C26_inspect_cursor (leftFirst : Bool) (c : Cursor) : (inspect leftFirst c).2 = c :=
  C26_contents_cursor _ (fun _ _ n => scoped_publicKeyDump n) leftFirst _ c

/-- **C26, repeatable**: inspecting again gives the same text, exception or undefined behaviour, whatever was dumped in
between. -/
theorem C26_inspect_again (leftFirst : Bool) (t : DumpTarget) (c : Cursor) :
    (inspect leftFirst (dumpSchema t (dumpData (inspect leftFirst c).2).2).2).1 = (inspect leftFirst c).1 := by
  rw [(C59_dump_cursor t _).1, C58_position, C26_inspect_cursor]

/-- **C25 for dumps**: dumping contents, data or schema leaves the data unchanged, whatever the outcome. -/
theorem C25_dump_data (leftFirst : Bool) (t : DumpTarget) (c : Cursor) :
    (inspect leftFirst c).2.forest = c.forest ∧ (dumpData c).2.forest = c.forest ∧ (dumpSchema t c).2.forest = c.forest := by
  rw [C26_inspect_cursor, C58_position, (C59_dump_cursor t c).1]
  exact ⟨rfl, rfl, rfl⟩

/-- **C25, moving**: going to the next value, into a value or out of it leaves the data unchanged. -/
theorem C25_moves (c : Cursor) : c.next.2.forest = c.forest ∧ c.enter.forest = c.forest ∧ c.exit.forest = c.forest := by
  obtain ⟨p, cu, r, u⟩ := c
  refine ⟨?_, ?_, ?_⟩
  · cases r <;> cases cu <;> simp [Cursor.next, Cursor.forest, Cursor.level]
  · cases cu with
    | none => rfl
    | some n => cases n; simp [Cursor.enter, Cursor.forest, Cursor.level, Cursor.close]
  · cases u with
    | nil => rfl
    | cons x u => obtain ⟨a, v, b⟩ := x; simp [Cursor.exit, Cursor.forest, Cursor.level, Cursor.close]

/-- Down to the second value of a list that is not the first value itself. -/
example : let c : Cursor := ⟨[.mk (.int 1) []], some (.mk .list [.mk (.int 2) [], .mk (.int 3) []]), [.mk (.int 4) []], []⟩
    c.enter.next.2.next.2.cur = some (.mk (.int 3) []) ∧ c.enter.next.2.next.2.forest = c.forest
    ∧ c.forest = [.mk (.int 1) [], .mk .list [.mk (.int 2) [], .mk (.int 3) []], .mk (.int 4) []] := by
  decide

/-- An inspection that throws inside a list: the cursor is back at the envelope. -/
example : let c := blobOf [textListT] (described "fpL".toList (.mk .list [.mk .null []]))
    (inspect true c).1.Throws ∧ (inspect true c).2 = c := by
  decide +kernel

#print axioms C26_contents_cursor
#print axioms C26_inspect_cursor
#print axioms C26_inspect_again
#print axioms C25_dump_data
#print axioms C25_moves

end Corda.Props
