import Verif.Lemmas.Prog

/-
C27, C28: type checks and string reads of the proton wrapper.
-/

namespace Corda.Props
open Corda Corda.Prog

/-- Specification: the value is one of the AMQP type. -/
def IsA : PnType → Atom → Prop
  | .null, .null | .bool, .bool _ | .ubyte, .ubyte _ | .byte, .byte _ | .ushort, .ushort _ | .short, .short _ | .uint, .uint _
  | .int, .int _ | .char, .char _ | .ulong, .ulong _ | .long, .long _ | .timestamp, .timestamp _ | .float, .float _
  | .double, .double _ | .decimal32, .decimal32 _ | .decimal64, .decimal64 _ | .decimal128, .decimal128 _ | .uuid, .uuid _
  | .binary, .binary _ | .string, .string _ | .symbol, .symbol _ | .described, .described | .array, .array | .list, .list
  | .map, .map => True
  | _, _ => False

private theorem isA_iff (t : PnType) (v : Atom) : IsA t v ↔ v.type = t := by
  cases v <;> cases t <;> simp [IsA, Atom.type]

/-- Specification: the current node exists and holds a value of AMQP type `t`. -/
def HoldsType (c : Cursor) (t : PnType) : Prop := ∃ v ks, c.cur = some (.mk v ks) ∧ IsA t v

private theorem holds_iff (c : Cursor) (t : PnType) (ht : t ≠ .invalid) : HoldsType c t ↔ c.type = t := by
  unfold HoldsType Cursor.type
  cases hc : c.cur with
  | none => simp; exact fun h => ht h.symm
  | some n => cases n with | mk v ks => simp [Node.val, isA_iff]

private theorem attest_spec (t : PnType) (m : String) (ht : t ≠ .invalid) (c : Cursor) :
    (((attest t m) c).1.Throws ↔ ¬ HoldsType c t) ∧ ((attest t m) c).1.Defined ∧ ((attest t m) c).2 = c := by
  rw [holds_iff c t ht]
  unfold attest
  split <;> simp_all [Res.Throws, Res.Defined]

/-- The checks without a null option, with the type each is named after. -/
def checks : List (Prog Unit × PnType) :=
  [(attestDescribed, .described), (attestInt, .int), (attestBinary, .binary), (attestBool, .bool),
   (attestFloat, .float), (attestLong, .long), (attestChar, .char), (attestDouble, .double), (attestList, .list),
   (isMapP, .map), (isUlong, .ulong), (isSymbol, .symbol)]

/-- **C27, what does hold.** Each check throws exactly when the current value is not of its type, does nothing else
and never moves; the string check does so when nulls are allowed.  Missing: the string check without nulls. -/
theorem C27_attest_exact_partial (c : Cursor) :
    (∀ p ∈ checks, ((p.1 c).1.Throws ↔ ¬ HoldsType c p.2) ∧ (p.1 c).1.Defined ∧ (p.1 c).2 = c)
    ∧ ((attestString true c).1.Throws ↔ ¬ HoldsType c .string ∧ ¬ HoldsType c .null)
    ∧ (attestString true c).1.Defined ∧ (attestString true c).2 = c := by
  refine ⟨?_, ?_⟩
  · intro p hp
    simp only [checks, List.mem_cons, List.not_mem_nil, or_false] at hp
    rcases hp with h | h | h | h | h | h | h | h | h | h | h | h <;> subst h <;>
      exact attest_spec _ _ (by decide) c
  · rw [holds_iff c _ (by decide), holds_iff c _ (by decide)]
    unfold attestString
    by_cases h1 : c.type = .string <;> by_cases h2 : c.type = .null <;>
      simp_all [Res.Throws, Res.Defined]

/-- **C27 fails for strings.** The string check without the null option accepts every value, for example an int, and
even the absence of a value. -/
theorem C27_attest_exact_violated :
    (∀ c, (attestString false c).1 = .ok ())
    ∧ ∃ c, ¬ HoldsType c .string ∧ (attestString false c).1 = .ok () := by
  refine ⟨?_, Cursor.root (.mk (.int 3) []), ?_, rfl⟩
  · intro c
    unfold attestString
    split <;> simp
  · rintro ⟨v, ks, h, ht⟩
    simp [Cursor.root] at h
    obtain ⟨rfl, -⟩ := h
    simp [IsA] at ht

example : (attestInt (Cursor.root (.mk (.int 3) []))).1 = .ok () := rfl
example : (attestInt (Cursor.root (.mk (.long 3) []))).1.Throws := by decide

/-- Specification: the text a string-like value stands for. -/
def stringLike (tolerate : Bool) : Option Node → Option Str
  | some (.mk (.string s) _) => some s
  | some (.mk (.symbol s) _) => some s
  | some (.mk .null _) => if tolerate then some [] else none
  | _ => none

/-- Specification: one element further, if there is one. -/
def OneFurther (c c' : Cursor) : Prop :=
  (∀ n ns, c.rest = n :: ns → c'.cur = some n ∧ c'.rest = ns ∧ c'.level = c.level ∧ c'.up = c.up)
  ∧ (c.rest = [] → c' = c)

private theorem next_oneFurther (c : Cursor) : OneFurther c c.next.2 := by
  constructor
  · intro n ns h
    have := c.next_keeps
    unfold Cursor.next at this ⊢
    simp only [h] at this ⊢
    exact ⟨trivial, trivial, this.1, trivial⟩
  · intro h
    simp [Cursor.next, h]

/-- **C28.** Reading a string returns the content of strings and symbols, the empty string for a tolerated null, and
throws for everything else; in every case the cursor moves one element on if there is one. -/
theorem C28_string_read (tolerate : Bool) (c : Cursor) :
    (∀ s, (readString tolerate c).1 = .ok s ↔ stringLike tolerate c.cur = some s)
    ∧ ((readString tolerate c).1.Throws ↔ stringLike tolerate c.cur = none)
    ∧ (readString tolerate c).1.Defined
    ∧ OneFurther c (readString tolerate c).2 := by
  have hmove : (readString tolerate c).2 = c.next.2 := by
    unfold readString autoNext
    dsimp only
    split <;> (try split) <;> rfl
  rw [hmove]
  refine ⟨?_, ?_, ?_, next_oneFurther c⟩
  all_goals
    simp only [readString, autoNext, stringLike, Cursor.val]
    cases hc : c.cur with
    | none => simp [Res.Throws, Res.Defined]
    | some n =>
      cases n with
      | mk v ks =>
        cases v <;> cases tolerate <;> simp [Node.val, Res.Throws, Res.Defined]

example : (readString false ⟨[], some (.mk (.symbol "fp".toList) []), [.mk .null []], []⟩).1 = .ok "fp".toList := rfl
example : (readString false ⟨[], some (.mk (.int 1) []), [.mk .null []], []⟩).2.cur = some (.mk .null []) := rfl

/-- **C28, typed reads of numbers** do not fail on a wrong type: they return zero (false, empty) and move on. -/
theorem C28_number_reads (c : Cursor) :
    (∀ v ks, c.cur = some (.mk v ks) →
      (readInt32 c).1 = .ok (match v with | .int n => n | _ => 0)
      ∧ (readInt64 c).1 = .ok (match v with | .long n => n | _ => 0)
      ∧ (readUint32 c).1 = .ok (match v with | .uint n => n | _ => 0)
      ∧ (readUint64 c).1 = .ok (match v with | .ulong n => n | _ => 0)
      ∧ (readBool c).1 = .ok (match v with | .bool n => n | _ => false)
      ∧ (readDouble c).1 = .ok (match v with | .double n => n | _ => 0)
      ∧ (readBinary c).1 = .ok (match v with | .binary n => n | _ => []))
    ∧ OneFurther c (readInt32 c).2 ∧ OneFurther c (readInt64 c).2 ∧ OneFurther c (readUint32 c).2
    ∧ OneFurther c (readUint64 c).2 ∧ OneFurther c (readBool c).2 ∧ OneFurther c (readDouble c).2
    ∧ OneFurther c (readBinary c).2 := by
  have h := next_oneFurther c
  refine ⟨?_, h, h, h, h, h, h, h⟩
  intro v ks hc
  simp only [readInt32, readInt64, readUint32, readUint64, readBool, readDouble, readBinary, autoNext, look, getInt,
    getLong, getUint, getUlong, getBool, getDouble, getBinary, Cursor.val, hc, Option.map_some, Node.val]
  cases v <;> simp

/-- **C28, reads without moving.** `get_string`, `get_symbol` and `get_boolean` return the current value if it has
their type (`get_string` the empty string for a null, if allowed), throw otherwise and never move. -/
theorem C28_getters (c : Cursor) :
    (∀ allowNull s, (Prog.getString allowNull c).1 = .ok s
        ↔ (∃ ks, c.cur = some (.mk (.string s) ks)) ∨ (allowNull = true ∧ s = [] ∧ ∃ ks, c.cur = some (.mk .null ks)))
    ∧ (∀ s, (getSymbol c).1 = .ok s ↔ ∃ ks, c.cur = some (.mk (.symbol s) ks))
    ∧ (∀ b, (getBoolean c).1 = .ok b ↔ ∃ ks, c.cur = some (.mk (.bool b) ks))
    ∧ (∀ allowNull, (Prog.getString allowNull c).1.Defined ∧ (Prog.getString allowNull c).2 = c)
    ∧ (getSymbol c).1.Defined ∧ (getSymbol c).2 = c
    ∧ (getBoolean c).1.Defined ∧ (getBoolean c).2 = c := by
  have hs : getSymbol c = match c.val with
      | some (.symbol s) => (.ok s, c)
      | _ => (.throw "Expected an unsigned long", c) := by
    show Prog.bind isSymbol (fun _ => look getSymbolRaw) c = _
    unfold Prog.bind isSymbol attest look getSymbolRaw Cursor.type Cursor.val
    cases hc : c.cur with
    | none => rfl
    | some n =>
      cases n with
      | mk v ks => cases v <;> simp [Node.val, Atom.type, hc]
  rw [hs]
  unfold Prog.getString getBoolean
  unfold Cursor.val
  cases hc : c.cur with
  | none => simp [Res.Defined]
  | some n =>
    cases n with
    | mk v ks =>
      refine ⟨?_, ?_, ?_, ?_, ?_⟩
      · intro a s; cases v <;> cases a <;> simp [Node.val, eq_comm]
      · intro s; cases v <;> simp [Node.val]
      · intro s; cases v <;> simp [Node.val]
      · intro a; cases v <;> cases a <;> simp [Node.val, Res.Defined]
      · cases v <;> simp [Node.val, Res.Defined]

example : (getBoolean (Cursor.root (.mk (.bool true) []))).1 = .ok true := rfl
example : (getBoolean (Cursor.root (.mk (.int 1) []))).1.Throws := by decide

#print axioms C28_getters
#print axioms C27_attest_exact_partial
#print axioms C27_attest_exact_violated
#print axioms C28_string_read
#print axioms C28_number_reads

end Corda.Props
