import Verif.Spec.Messages
import Verif.Lemmas.Number
import Verif.Lemmas.Prog

/-
C120: what the checks of the wrapper say when they throw.
-/

namespace Corda.Props
open Corda Corda.Spec Prog

/-! ### The types -/

/-- All of them. -/
private def types : List PnType :=
  [.null, .bool, .ubyte, .byte, .ushort, .short, .uint, .int, .char, .ulong, .long, .timestamp, .float, .double, .decimal32, .decimal64, .decimal128, .uuid,
   .binary, .string, .symbol, .described, .array, .list, .map, .invalid]

private theorem mem_types (t : PnType) : t ∈ types := by cases t <;> decide

private theorem word_tells (s s' : PnType) (x : Str) (h : s.str.toList ++ ',' :: x = s'.str.toList ++ ',' :: x) : s = s' := by
  have h1 : s.str.toList = s'.str.toList := List.append_cancel_right h
  have : ∀ s ∈ types, ∀ s' ∈ types, s.str.toList = s'.str.toList → s = s' := by decide +kernel
  exact this s (mem_types s) s' (mem_types s') h1

private theorem name_tells (s s' : PnType) (h : s.name = s'.name) : s = s' := by
  have : ∀ s ∈ types, ∀ s' ∈ types, s.name = s'.name → s = s' := by decide +kernel
  exact this s (mem_types s) s' (mem_types s') h

private theorem num_tells (s s' : PnType) (x y : Str) (h : setw2 (intStr s.num) ++ x = setw2 (intStr s'.num) ++ y) : s = s' := by
  have h2 : ∀ s ∈ types, (setw2 (intStr s.num)).length = 2 := by decide +kernel
  have h1 := List.append_inj_left h ((h2 s (mem_types s)).trans (h2 s' (mem_types s')).symm)
  have : ∀ s ∈ types, ∀ s' ∈ types, setw2 (intStr s.num) = setw2 (intStr s'.num) → s = s' := by decide +kernel
  exact this s (mem_types s) s' (mem_types s') h1

private theorem got_eq (e : Str) (t : PnType) (file : Str) (line : Int) :
    gotText e t file line = e ++ (", got ".toList ++ (t.str.toList ++ ',' :: (' ' :: file ++ "::".toList ++ intStr line ++ nl))) := by
  unfold gotText
  generalize ", got ".toList = g
  rw [show ", ".toList = [',', ' '] by decide]
  simp only [List.append_assoc, List.cons_append, List.nil_append]

private theorem got_tells (e : Str) (t t' : PnType) (file : Str) (line : Int) (h : gotText e t file line = gotText e t' file line) : t = t' := by
  rw [got_eq, got_eq] at h
  exact word_tells t t' _ (List.append_cancel_left (List.append_cancel_left h))

/-! ### C120: when and what -/

/-- **C120, when**: there is a message exactly if the check throws; for every check, wherever it is made and whatever is there. -/
theorem C120_thrown (k : Check) (file : Str) (line : Int) (c : Cursor) :
    (k.message file line c).isSome ↔ (runCheck k c).1.Throws := by
  have cs : (c.val = none ∧ c.type = .invalid) ∨ ∃ v, c.val = some v ∧ c.type = v.type := by
    unfold Cursor.type Cursor.val
    cases c.cur with
    | none => exact .inl ⟨rfl, rfl⟩
    | some n => exact .inr ⟨n.val, rfl, rfl⟩
  have plain : ∀ (t : PnType) (m : String) (x : Str),
      (if c.type ≠ t then some x else none).isSome ↔ (attest t m c).1.Throws := by
    intro t m x
    unfold attest
    by_cases h : c.type = t <;> simp [h, Res.Throws]
  cases k with
  | ulong => exact plain _ _ _
  | symbol => exact plain _ _ _
  | described => exact plain _ _ _
  | int => exact plain _ _ _
  | binary => exact plain _ _ _
  | bool => exact plain _ _ _
  | float => exact plain _ _ _
  | long => exact plain _ _ _
  | char => exact plain _ _ _
  | double => exact plain _ _ _
  | list => exact plain _ _ _
  | map => exact plain _ _ _
  | string b =>
    simp only [Check.message, runCheck, attestString]
    by_cases h : c.type = .string
    · simp [h, Res.Throws]
    · by_cases h' : (b && decide (c.type ≠ .null)) = true
      · simp only [ne_eq, h, not_false_eq_true, if_true, h', Option.isSome_some, true_iff]
        trivial
      · simp only [ne_eq, h, not_false_eq_true, if_true, h']
        exact ⟨fun x => (by cases x), fun x => x.elim⟩
  | getString b =>
    rcases cs with ⟨hv, ht⟩ | ⟨v, hv, ht⟩
    · simp only [Check.message, runCheck, Prog.bind_def, getString, hv, ht]
      cases b <;> simp [Res.Throws]
    · simp only [Check.message, runCheck, Prog.bind_def, getString, hv, ht]
      cases v <;> cases b <;> simp [Atom.type, Res.Throws, Prog.pure_def]
  | getBoolean =>
    rcases cs with ⟨hv, ht⟩ | ⟨v, hv, ht⟩
    · simp only [Check.message, runCheck, Prog.bind_def, getBoolean, hv, ht]
      simp [Res.Throws]
    · simp only [Check.message, runCheck, Prog.bind_def, getBoolean, hv, ht]
      cases v <;> simp [Atom.type, Res.Throws, Prog.pure_def]
  | getInt =>
    rcases cs with ⟨hv, ht⟩ | ⟨v, hv, ht⟩
    · simp only [Check.message, runCheck, Prog.bind_def, getIntChecked, hv, ht]
      simp [Res.Throws]
    · simp only [Check.message, runCheck, Prog.bind_def, getIntChecked, hv, ht]
      cases v <;> simp [Atom.type, Res.Throws, Prog.pure_def]
  | readString b =>
    rcases cs with ⟨hv, ht⟩ | ⟨v, hv, ht⟩
    · simp only [Check.message, runCheck, Prog.bind_def, readString, autoNext, hv, ht]
      cases b <;> simp [Res.Throws]
    · simp only [Check.message, runCheck, Prog.bind_def, readString, autoNext, hv, ht]
      cases v <;> cases b <;> simp [Atom.type, Res.Throws, Prog.pure_def]

/-- **C120, ten checks say everything**: what was expected, the type of what is there, and the place in the program. -/
theorem C120_complete_partial (x : Check × String × PnType) (hx : x ∈ complete) (file : Str) (line : Int) (c : Cursor) :
    x.1.message file line c = if c.type = x.2.2 then none
      else some (x.2.1.toList ++ ", got ".toList ++ (typeWords c.type).toList ++ ", ".toList ++ file ++ "::".toList ++ decimal line ++ "\n".toList) := by
  have hw : ∀ t : PnType, t.str = typeWords t := fun t => by cases t <;> rfl
  have key : ∀ (t : PnType) (e : Str), (if c.type ≠ t then some (gotText e c.type file line) else none)
      = if c.type = t then none else some (e ++ ", got ".toList ++ (typeWords c.type).toList ++ ", ".toList ++ file ++ "::".toList ++ decimal line ++ "\n".toList) := by
    intro t e
    rw [gotText, hw, intStr_eq, show nl = "\n".toList from rfl]
    by_cases h : c.type = t
    · rw [if_neg (by simp [h]), if_pos h]
    · rw [if_pos h, if_neg h]
  simp only [complete, List.mem_cons, List.not_mem_nil, or_false] at hx
  rcases hx with rfl | rfl | rfl | rfl | rfl | rfl | rfl | rfl | rfl | rfl <;> exact key _ _

/-- **C120, which tell the type**: the ten, the one for unsigned longs and the reading of a text. -/
theorem C120_type_partial (k : Check) (hk : k ∈ Check.ulong :: complete.map (·.1) ∨ ∃ b, k = .readString b) : TellsType k := by
  have got : ∀ (t : PnType) (e : Str) (file : Str) (line : Int) (c c' : Cursor) (m : Str),
      (if c.type ≠ t then some (gotText e c.type file line) else none) = some m →
      (if c'.type ≠ t then some (gotText e c'.type file line) else none) = some m → c.type = c'.type := by
    intro t e file line c c' m h h'
    split at h
    · split at h'
      · exact got_tells e _ _ file line (Option.some.inj (h.trans h'.symm))
      · cases h'
    · cases h
  intro file line c c' m h h'
  rcases hk with hk | ⟨b, rfl⟩
  · simp only [complete, List.map_cons, List.map_nil, List.mem_cons, List.not_mem_nil, or_false] at hk
    rcases hk with rfl | rfl | rfl | rfl | rfl | rfl | rfl | rfl | rfl | rfl | rfl
    · simp only [Check.message] at h h'
      split at h
      · split at h'
        · exact name_tells _ _ (List.append_cancel_left (Option.some.inj (h.trans h'.symm)))
        · cases h'
      · cases h
    all_goals exact got _ _ file line c c' m h h'
  · simp only [Check.message] at h h'
    split at h
    · cases h
    split at h
    · cases h
    split at h
    · cases h
    split at h'
    · cases h'
    split at h'
    · cases h'
    split at h'
    · cases h'
    have e := Option.some.inj (h.trans h'.symm)
    simp only [List.append_assoc] at e
    have e1 := List.append_cancel_left e
    unfold Cursor.shown at e1
    simp only [List.append_assoc] at e1
    exact num_tells _ _ _ _ e1

/-- **C120 is violated by five checks**: whatever is there, they say the same. -/
theorem C120_nothing_violated (b : Bool) :
    TellsNothing .symbol ∧ TellsNothing (.string b) ∧ TellsNothing (.getString b) ∧ TellsNothing .getBoolean ∧ TellsNothing .getInt := by
  refine ⟨?_, ?_, ?_, ?_, ?_⟩ <;> intro file line c c' m m' h h' <;> simp only [Check.message] at h h'
  · split at h <;> split at h' <;> first | exact (Option.some.inj h).symm.trans (Option.some.inj h') | (cases h; done) | (cases h'; done)
  · (repeat' split at h) <;> (repeat' split at h') <;> first | exact (Option.some.inj h).symm.trans (Option.some.inj h') | (cases h; done) | (cases h'; done)
  · (repeat' split at h) <;> (repeat' split at h') <;> first | exact (Option.some.inj h).symm.trans (Option.some.inj h') | (cases h; done) | (cases h'; done)
  · split at h <;> split at h' <;> first | exact (Option.some.inj h).symm.trans (Option.some.inj h') | (cases h; done) | (cases h'; done)
  · split at h <;> split at h' <;> first | exact (Option.some.inj h).symm.trans (Option.some.inj h') | (cases h; done) | (cases h'; done)

/-- **C120 is violated, symbols**: what was expected is said to be an unsigned long; also if what is there is one. -/
theorem C120_symbol_violated (file : Str) (line : Int) (c : Cursor) (h : c.type ≠ .symbol) :
    Check.message file line c .symbol = some "Expected an unsigned long".toList
      ∧ (c.type = .ulong → Check.message file line c .ulong = none) := by
  refine ⟨?_, fun hu => ?_⟩
  · simp only [Check.message, if_pos h]
  · simp only [Check.message, hu, ne_eq, not_true_eq_false, if_false]

/-- **C120, standard error**: the check for a described value writes there the number it finds in its place, in red up to the number, and otherwise nothing. -/
theorem C120_err (c : Cursor) :
    (∀ n ks, c.cur = some (.mk (.int n) ks) →
      describedErr c = "attest_is_described::\x1b[31mnot desc is int \x1b[0m".toList ++ decimal n ++ "\n".toList)
      ∧ (c.type ≠ .int → describedErr c = []) := by
  refine ⟨fun n ks h => ?_, fun h => by rw [describedErr, if_neg h]⟩
  have h1 : c.type = .int := by simp [Cursor.type, h, Node.val, Atom.type]
  have h2 : Prog.getInt c = n := by simp [Prog.getInt, Cursor.val, h, Node.val]
  rw [describedErr, if_pos h1, h2, intStr_eq, show nl = "\n".toList from rfl]
  rw [show "attest_is_described::\x1b[31mnot desc is int \x1b[0m".toList = "attest_is_described::".toList ++ '\x1b' :: "[31m".toList
    ++ "not desc is int ".toList ++ '\x1b' :: "[0m".toList by decide]

/-! ### Examples -/

/-- A list where an int is expected. -/
example : Check.message "a.cxx".toList 7 (Cursor.root (.mk .list [])) .int = some "Expected an Integer type, got list, a.cxx::7\n".toList := by decide

/-- A list with one entry where a text is to be read. -/
example : Check.message "a.cxx".toList 7 (Cursor.root (.mk .list [.mk .null []])) (.readString false)
    = some "Expected a String but found [24 PN_LIST #entries: 1] :: a.cxx::7".toList := by decide

/-- An unsigned long where a symbol is expected. -/
example : Check.message [] 0 (Cursor.root (.mk (.ulong 3) [])) .symbol = some "Expected an unsigned long".toList := by decide

#print axioms C120_thrown
#print axioms C120_complete_partial
#print axioms C120_type_partial
#print axioms C120_nothing_violated
#print axioms C120_symbol_violated
#print axioms C120_err

end Corda.Props
