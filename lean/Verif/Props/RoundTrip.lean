import Verif.Lemmas.RoundTrip
import Verif.Props.Writer

/-
C33–C37 and C52–C56: reading serialised objects back.
-/

namespace Corda.Props
open Corda Prog Spec

/-! Two classes: an `int`; a string pointer, a nested object by value and by pointer, and a `char`. -/

private def inn (n : Int) : Obj := .comp "net.In".toList "fpIn".toList [.prim "x".toList false (.int n)]
private def innShape : Shape := .mk [.prim false .int]

private def out (s : Str) : Obj := .comp "net.Out".toList "fpOut".toList
  [.prim "s".toList true (.string s), .obj "a".toList "net.In".toList false (inn 1),
   .obj "b".toList "net.In".toList true (inn (-7)), .prim "c".toList false (.char 65)]
private def outShape : Shape := .mk [.prim true .string, .obj false innShape, .obj true innShape, .prim false .char]

private theorem out_matches (s : Str) : Matches outShape (out s) := by
  simp [Matches, MatchesAll, MatchesProp, out, outShape, innShape, inn, Prim.type]

private theorem out_prints (s : Str) : NoCharPointers (out s) := by
  simp [NoCharPointers, NoCharPointersMembers, NoCharPointersMember, out, inn, Prim.type]

/-- An object that a class can read can be serialised, pointers to characters aside. -/
theorem matched_serialise (s : Shape) (o : Obj) (h : Matches s o) (hn : NoCharPointers o) :
    ∃ ts, serialise o = .ok [envelopeTree (objTree o) (schemaTree ts) (.mk .null [])] := by
  have hc : NoClash o := by
    intro a ha b hb _
    rw [classes_matched s o h a ha, classes_matched s o h b hb]
  obtain ⟨ns, hs⟩ := C30_succeeds o hc hn
  obtain ⟨ts, rfl⟩ := C30_blob o ns hs
  exact ⟨ts, hs⟩

private theorem deserialise_at (p : PropShape) (o : Obj) (ts : List Node) :
    deserialise p (Cursor.root (envelopeTree (objTree o) (schemaTree ts) (.mk .null [])))
      = readProp p ⟨[], some (objTree o), [schemaTree ts, .mk .null []],
          [([.mk (.ulong (cordaId 1)) []], .list, []), ([], .described, [])]⟩ := by
  obtain ⟨f, v, ks, h⟩ := objTree_described o
  rw [h]
  exact bind_of_ok (p := readyPayload) (readyPayload_root f v ks ts (.mk .null []))

/-! ### C33: round trip -/

/-- What comes back for every object without null pointers, whatever its strings and characters are. -/
theorem C33_what_comes_back (s : Shape) (o : Obj) (ptr : Bool) (h : Matches s o) (hn : NoCharPointers o)
    (v : RVal) (hv : valueWith received o = some v) :
    ∃ n, serialise o = .ok [n] ∧ (deserialise (.obj ptr s) (Cursor.root n)).1 = .ok v := by
  obtain ⟨ts, hs⟩ := matched_serialise s o h hn
  refine ⟨_, hs, ?_⟩
  rw [deserialise_at, reads_object s o h v hv ptr _ rfl]

/-- **C33, partial.** For every class whose properties are primitives, other such classes, and pointers to either, and
for every object of it with no null pointers, no pointers to characters and no NUL in its strings: serialising
succeeds, and reading the blob
with the class gives an object with the same contents.  Missing: null pointers (C34), NULs in strings (C35)
and pointers to characters, which are undefined behaviour when written (C29). -/
theorem C33_object_round_trip_partial (s : Shape) (o : Obj) (ptr : Bool) (h : Matches s o) (hn : NoCharPointers o)
    (hc : ∀ p ∈ prims o, Clean p) (v : RVal) (hv : value o = some v) :
    ∃ n, serialise o = .ok [n] ∧ (deserialise (.obj ptr s) (Cursor.root n)).1 = .ok v := by
  apply C33_what_comes_back s o ptr h hn
  rw [value_congr received id o fun p hp => received_clean p (hc p hp)]
  exact hv

/-- Every object without null pointers has contents: the hypothesis of the theorem is only about nulls. -/
example : value (out "hi".toList) = some (.obj [.prim (.string "hi".toList), .obj [.prim (.int 1)],
    .obj [.prim (.int (-7))], .prim (.char 65)]) := by decide +kernel

example : ∃ n, serialise (out "hi".toList) = .ok [n] ∧ (deserialise (.obj true outShape) (Cursor.root n)).1
    = .ok (.obj [.prim (.string "hi".toList), .obj [.prim (.int 1)], .obj [.prim (.int (-7))], .prim (.char 65)]) :=
  C33_object_round_trip_partial outShape (out "hi".toList) true (out_matches _) (out_prints _)
    (by intro p hp; simp [prims, primsMembers, primsMember, out, inn] at hp
        rcases hp with rfl | rfl | rfl | rfl <;> simp [Clean]) _ (by decide +kernel)

/-- **C33 is violated**: an object with an embedded NUL in a string comes back different. -/
theorem C33_object_round_trip_violated :
    ∃ s o v, Matches s o ∧ NoCharPointers o ∧ value o = some v ∧ ∃ n, serialise o = .ok [n]
      ∧ ∃ w, (deserialise (.obj false s) (Cursor.root n)).1 = .ok w ∧ w ≠ v := by
  refine ⟨outShape, out ['a', '\x00', 'b'], _, out_matches _, out_prints _, rfl, ?_⟩
  obtain ⟨n, h1, h2⟩ := C33_what_comes_back outShape (out ['a', '\x00', 'b']) false (out_matches _) (out_prints _) _ rfl
  exact ⟨n, h1, _, h2, by decide +kernel⟩

/-! ### C34: null pointers -/

/-- **C34 is violated, always**: an object with a null pointer anywhere is serialised, but reading it never returns an
object. -/
theorem C34_null_pointers_violated (s : Shape) (o : Obj) (ptr : Bool) (h : Matches s o)
    (hn : NoCharPointers o) (hv : value o = none) :
    ∃ n, serialise o = .ok [n] ∧ ∀ v, (deserialise (.obj ptr s) (Cursor.root n)).1 ≠ .ok v := by
  obtain ⟨ts, hs⟩ := matched_serialise s o h hn
  refine ⟨_, hs, fun v => ?_⟩
  rw [deserialise_at]
  exact fails_object s o h ((value_none received id o).2 hv) ptr _ rfl v

private def nully (m : Member) : Obj := .comp "C".toList "f".toList [m]

/-- A null `int *`: an exception. -/
example : ((serialise (nully (.nullPrim "p".toList .int))).bind fun ns =>
      (deserialise (.obj false (.mk [.prim true .int])) ⟨[], ns.head?, [], []⟩).1)
    = .throw "Expected an Integer type" := by decide +kernel

/-- A null pointer to an object: an exception. -/
example : ((serialise (nully (.nullObj "p".toList "net.In".toList))).bind fun ns =>
      (deserialise (.obj false (.mk [.obj true innShape])) ⟨[], ns.head?, [], []⟩).1)
    = .throw "Expected a Described type" := by decide +kernel

/-- A null `std::string *`: undefined behaviour. -/
theorem C34_null_string_violated : ((serialise (nully (.nullPrim "p".toList .string))).bind fun ns =>
      (deserialise (.obj false (.mk [.prim true .string])) ⟨[], ns.head?, [], []⟩).1).IsUB := by decide +kernel

/-! ### C35: strings -/

/-- What comes back is the string up to the first NUL. -/
theorem C35_string_received (str : Str) (ptr : Bool) :
    ∃ n, serialise (nully (.prim "s".toList ptr (.string str))) = .ok [n]
      ∧ (deserialise (.obj false (.mk [.prim ptr .string])) (Cursor.root n)).1
        = .ok (.obj [.prim (.string (str.takeWhile (· ≠ '\x00')))]) :=
  C33_what_comes_back _ _ false (by simp [nully, Matches, MatchesAll, MatchesProp, Prim.type])
    (by simp [nully, NoCharPointers, NoCharPointersMembers, NoCharPointersMember, Prim.type]) _ rfl

/-- **C35, partial.** A string without NUL is read back with exactly the bytes that were written. -/
theorem C35_strings_partial (str : Str) (ptr : Bool) (h : '\x00' ∉ str) :
    ∃ n, serialise (nully (.prim "s".toList ptr (.string str))) = .ok [n]
      ∧ (deserialise (.obj false (.mk [.prim ptr .string])) (Cursor.root n)).1 = .ok (.obj [.prim (.string str)]) := by
  obtain ⟨n, h1, h2⟩ := C35_string_received str ptr
  refine ⟨n, h1, ?_⟩
  have := received_clean (.string str) h
  simp only [received, Prim.string.injEq] at this
  rw [h2, this]

/-- **C35 is violated** for every string that has a NUL. -/
theorem C35_strings_violated (str : Str) (ptr : Bool) (h : '\x00' ∈ str) :
    ∃ n, serialise (nully (.prim "s".toList ptr (.string str))) = .ok [n]
      ∧ ∃ w, (deserialise (.obj false (.mk [.prim ptr .string])) (Cursor.root n)).1 = .ok (.obj [.prim (.string w)])
        ∧ w.length < str.length := by
  obtain ⟨n, h1, h2⟩ := C35_string_received str ptr
  refine ⟨n, h1, _, h2, ?_⟩
  clear h1 h2
  induction str with
  | nil => simp at h
  | cons a as ih =>
    by_cases ha : a = '\x00'
    · subst ha; simp
    · have : '\x00' ∈ as := by simpa [Ne.symm ha] using h
      rw [List.takeWhile_cons_of_pos (by simpa using ha)]
      simpa using ih this

example : ['a', '\x00', 'b'].takeWhile (· ≠ '\x00') = ['a'] := by decide

/-! ### C36: typed reads -/

/-- **C36, partial.** Reading any C++ primitive type but `std::string`, with the cursor anywhere, on any value or on
none, either returns the value there, which then has the matching AMQP type, or throws; afterwards the cursor has moved
on by one.  Missing: strings. -/
theorem C36_typed_reads_partial (t : PrimType) (ht : t ≠ .string) (ptr : Bool) (c : Cursor) :
    (readProp (.prim ptr t) c).2 = c.next.2
    ∧ (((∃ m, (readProp (.prim ptr t) c).1 = .throw m) ∧ c.type ≠ amqpType t)
      ∨ ∃ v, (readProp (.prim ptr t) c).1 = .ok (.prim v) ∧ v.type = t ∧ c.type = amqpType t
          ∧ ∀ w, c.val = some (primNode w).val → v = received w) := by
  have key : ∀ (pt : PnType) (m : String) (f : Unit → Prog Prim), c.type ≠ pt →
      (do let v ← (attest pt m >>= f); pure (RVal.prim v) : Prog RVal) c = (.throw m, c) := by
    intro pt m f h
    rw [bind_def, bind_of_throw (attest_no h)]
  unfold readProp autoNext
  by_cases h : c.type = amqpType t
  · cases t <;> first | exact absurd rfl ht | skip
    all_goals
      simp only [amqpType] at h
      simp only [primGet, attestInt, attestBool, attestFloat, attestDouble, attestLong, attestChar, bind_def,
        attest_ok h, look, pure_def]
      refine ⟨trivial, .inr ⟨_, rfl, rfl, h, ?_⟩⟩
      intro w hw
      have hwt : (primNode w).val.type = c.type := by
        obtain ⟨p, cu, r, u⟩ := c
        cases cu with
        | none => simp [Cursor.val] at hw
        | some n => simp [Cursor.val] at hw; simp [Cursor.type, hw]
      rw [h] at hwt
      cases w <;> simp [primNode, Node.val, Atom.type] at hwt hw <;>
        simp [getInt, getBool, getFloat, getDouble, getLong, getChar, hw, received]
      try exact narrow_char _
  · cases t <;> first | exact absurd rfl ht | skip
    all_goals
      simp only [amqpType] at h
      simp only [primGet, attestInt, attestBool, attestFloat, attestDouble, attestLong, attestChar, key _ _ _ h]
      exact ⟨trivial, .inl ⟨⟨_, rfl⟩, h⟩⟩

/-- **C36 is violated**: reading a string is undefined behaviour wherever there is no string. -/
theorem C36_typed_reads_violated (ptr : Bool) (c : Cursor) :
    (readProp (.prim ptr .string) c).1.IsUB ↔ c.type ≠ .string := by
  obtain ⟨p, cu, r, u⟩ := c
  unfold readProp autoNext
  cases cu with
  | none => simp [primGet, bind_def, attestString, Cursor.type, lookR, cString, Cursor.val, Res.IsUB]
  | some n =>
    cases n with
    | mk v ks =>
      cases v <;> simp [primGet, bind_def, attestString, Cursor.type, lookR, cString, Cursor.val, Res.IsUB, Node.val,
        Atom.type, pure_def]

example : (readProp (.prim false .int) ⟨[], some (.mk (.long 7) []), [], []⟩).1 = .throw "Expected an Integer type" := by
  decide +kernel
example : (readProp (.prim false .string) ⟨[], some (.mk (.int 7) []), [], []⟩).1.IsUB := by decide +kernel

/-! ### C37: twice -/

/-- **C37 is violated, always**: after an object has been read from a blob, reading it again throws. -/
theorem C37_repeatable_violated (s s' : Shape) (o : Obj) (ptr ptr' : Bool) (h : Matches s o)
    (hn : NoCharPointers o) (v : RVal) (hv : valueWith received o = some v) :
    ∃ n, serialise o = .ok [n] ∧ (deserialise (.obj ptr s) (Cursor.root n)).1 = .ok v
      ∧ (deserialise (.obj ptr' s') (deserialise (.obj ptr s) (Cursor.root n)).2).1
        = .throw "Expected a Described type" := by
  obtain ⟨ts, hs⟩ := matched_serialise s o h hn
  refine ⟨_, hs, ?_⟩
  rw [deserialise_at, reads_object s o h v hv ptr _ rfl]
  refine ⟨rfl, ?_⟩
  have := readyPayload_again [objTree o] ts [.mk .null []]
    [([.mk (.ulong (cordaId 1)) []], .list, []), ([], .described, [])]
  unfold deserialise
  rw [bind_def]
  simp only [Cursor.next]
  cases hr : readyPayload ⟨[objTree o], some (schemaTree ts), [.mk .null []],
      [([.mk (.ulong (cordaId 1)) []], .list, []), ([], .described, [])]⟩ with
  | mk r c =>
    rw [hr] at this
    simp only at this
    subst this
    simp only [Option.toList, List.cons_append, List.nil_append, hr]

example : ((serialise (inn 3)).bind fun ns =>
      (deserialise (.obj false innShape) (deserialise (.obj false innShape) ⟨[], ns.head?, [], []⟩).2).1)
    = .throw "Expected a Described type" := by decide +kernel

/-! ### C52: another class -/

/-- **C52 is violated, always**: an object is read by any class with properties of the same types, whatever its own
class and fingerprint and whatever the classes and fingerprints inside it are: `Matches` does not mention them, and
renaming the class changes nothing. -/
theorem C52_other_class_violated (s : Shape) (n f n' f' : Str) (ms : List Member) (ptr : Bool)
    (h : Matches s (.comp n f ms)) (hn : NoCharPointers (.comp n f ms)) (v : RVal) (hv : valueWith received (.comp n f ms) = some v) :
    ∃ a b, serialise (.comp n f ms) = .ok [a] ∧ serialise (.comp n' f' ms) = .ok [b]
      ∧ (deserialise (.obj ptr s) (Cursor.root a)).1 = .ok v
      ∧ (deserialise (.obj ptr s) (Cursor.root b)).1 = .ok v := by
  obtain ⟨a, h1, h2⟩ := C33_what_comes_back s _ ptr h hn v hv
  obtain ⟨b, h3, h4⟩ := C33_what_comes_back s (.comp n' f' ms) ptr h hn v hv
  exact ⟨a, b, h1, h3, h2, h4⟩

/-! ### C53: other properties -/

private theorem matchesAll_append (ps qs : List PropShape) (ms ns : List Member) (h : MatchesAll ps ms)
    (h2 : MatchesAll qs ns) : MatchesAll (ps ++ qs) (ms ++ ns) := by
  induction ms generalizing ps with
  | nil => simp only [MatchesAll] at h; subst h; exact h2
  | cons m ms ih =>
    obtain ⟨q, qs', rfl, h3, h4⟩ := h
    exact ⟨q, qs' ++ qs, rfl, h3, ih _ h4⟩

private theorem memberTrees_append (ms ns : List Member) : memberTrees (ms ++ ns) = memberTrees ms ++ memberTrees ns := by
  induction ms with
  | nil => rfl
  | cons m ms ih => simp [memberTrees, ih]

private theorem comp_serialise (n f : Str) (ms : List Member) (hm : ∀ u ∈ classesMembers ms, u.2 = none)
    (hp : NoCharPointersMembers ms) :
    ∃ ts, serialise (.comp n f ms) = .ok [envelopeTree (objTree (.comp n f ms)) (schemaTree ts) (.mk .null [])] := by
  have hn : NoClash (.comp n f ms) := by
    have : ∀ u ∈ classes (.comp n f ms), u.2 = none := by
      intro u hu
      rw [classes, List.mem_cons] at hu
      rcases hu with rfl | hu
      · rfl
      · exact hm u hu
    intro a ha b hb _
    rw [this a ha, this b hb]
  obtain ⟨ns, hs⟩ := C30_succeeds _ hn (by rw [NoCharPointers]; exact hp)
  obtain ⟨ts, rfl⟩ := C30_blob _ ns hs
  exact ⟨ts, hs⟩

private theorem deserialise_props (qs : List PropShape) (n f : Str) (ms : List Member) (ptr : Bool) (vs : List RVal)
    (hm : ∀ u ∈ classesMembers ms, u.2 = none) (hp : NoCharPointersMembers ms)
    (h : ∀ u, ∃ c', readProps qs (⟨[], none, memberTrees ms, u⟩ : Cursor).next.2 = (.ok vs, c')
      ∧ Keeps (⟨[], none, memberTrees ms, u⟩ : Cursor) c') :
    ∃ a, serialise (.comp n f ms) = .ok [a]
      ∧ (deserialise (.obj ptr (.mk qs)) (Cursor.root a)).1 = .ok (.obj vs) := by
  obtain ⟨ts, hs⟩ := comp_serialise n f ms hm hp
  refine ⟨_, hs, ?_⟩
  rw [deserialise_at]
  have : Reads (readProp (.obj ptr (.mk qs))) (objTree (.comp n f ms)) (.obj vs) := by
    rw [readProp, objTree]
    apply reads_composite
    intro u
    obtain ⟨c', h1, h2⟩ := h u
    exact ⟨c', by rw [readShape, bind_of_ok h1]; rfl, h2⟩
  rw [this _ rfl]

private theorem at_first (ts more : List Node) (u : List (List Node × Atom × List Node)) :
    At ts more (⟨[], none, ts ++ more, u⟩ : Cursor).next.2 := by
  cases ts with
  | nil => trivial
  | cons a as => exact ⟨rfl, rfl⟩

/-- **C53 is violated, fewer properties**: a class that reads only the first properties reads them, and the rest are
dropped silently. -/
theorem C53_fewer_violated (ps : List PropShape) (n f : Str) (ms extra : List Member) (ptr : Bool)
    (h : MatchesAll ps ms) (hx : ∀ u ∈ classesMembers extra, u.2 = none) (hp : NoCharPointersMembers (ms ++ extra))
    (vs : List RVal) (hv : valuesWith received ms = some vs) :
    ∃ a, serialise (.comp n f (ms ++ extra)) = .ok [a]
      ∧ (deserialise (.obj ptr (.mk ps)) (Cursor.root a)).1 = .ok (.obj vs) := by
  apply deserialise_props
  · have : classesMembers (ms ++ extra) = classesMembers ms ++ classesMembers extra := by
      clear h hx hv hp
      induction ms with
      | nil => rfl
      | cons m ms ih => simp [classesMembers, ih]
    intro u hu
    rw [this, List.mem_append] at hu
    rcases hu with hu | hu
    · exact classes_matchedAll ps ms h u hu
    · exact hx u hu
  · exact hp
  · intro u
    rw [memberTrees_append]
    obtain ⟨c', h1, h2, -⟩ := reads_members ps ms h vs hv (memberTrees extra) _ (at_first _ _ u)
    exact ⟨c', h1, (Cursor.next_keeps _).trans h2⟩

private theorem readProps_append (ps qs : List PropShape) (c c' : Cursor) (vs : List RVal)
    (h : readProps ps c = (.ok vs, c')) (r : Res (List RVal)) (c'' : Cursor) (h2 : readProps qs c' = (r, c'')) :
    readProps (ps ++ qs) c = (r.bind (fun ws => .ok (vs ++ ws)), c'') := by
  induction ps generalizing c vs with
  | nil =>
    simp only [readProps, pure_def, Prod.mk.injEq, Res.ok.injEq] at h
    obtain ⟨rfl, rfl⟩ := h
    simp only [List.nil_append, h2]
    cases r <;> rfl
  | cons p ps ih =>
    rw [readProps, bind_def] at h
    rw [List.cons_append, readProps, bind_def]
    cases hp : readProp p c with
    | mk r1 c1 =>
      rw [hp] at h
      cases r1 with
      | throw m => simp at h
      | ub w => simp at h
      | ok v =>
        simp only [bind_def] at h ⊢
        cases hps : readProps ps c1 with
        | mk r2 c2 =>
          rw [hps] at h
          cases r2 with
          | throw m => simp at h
          | ub w => simp at h
          | ok ws =>
            simp only [pure_def, Prod.mk.injEq, Res.ok.injEq] at h
            obtain ⟨rfl, rfl⟩ := h
            rw [ih c1 ws hps]
            cases r <;> rfl

private theorem readProps_again (w : Prim) (ptr : Bool) (k : Nat) (c : Cursor) (hc : c.cur = some (primNode w))
    (hr : c.rest = []) :
    readProps (List.replicate k (.prim ptr w.type)) c = (.ok (List.replicate k (.prim (received w))), c) := by
  have hn : c.next.2 = c := by unfold Cursor.next; rw [hr]
  induction k with
  | zero => rfl
  | succ k ih => rw [List.replicate_succ, readProps_cons (reads_prim ptr w) c hc, hn, ih]; rfl

/-- **C53 is violated, more properties**: a class that reads `k` more properties of the type of the last one reads the
last value again for each of them. -/
theorem C53_more_violated (ps : List PropShape) (n f x : Str) (ms : List Member) (p p' ptr : Bool) (w : Prim) (k : Nat)
    (h : MatchesAll ps ms) (hp : NoCharPointersMembers (ms ++ [.prim x p w])) (vs : List RVal)
    (hv : valuesWith received ms = some vs) :
    ∃ a, serialise (.comp n f (ms ++ [.prim x p w])) = .ok [a]
      ∧ (deserialise (.obj ptr (.mk (ps ++ [.prim p w.type] ++ List.replicate k (.prim p' w.type)))) (Cursor.root a)).1
        = .ok (.obj (vs ++ List.replicate (k + 1) (.prim (received w)))) := by
  have hm : MatchesAll (ps ++ [.prim p w.type]) (ms ++ [.prim x p w]) :=
    matchesAll_append _ _ _ _ h ⟨_, _, rfl, rfl, rfl⟩
  have hvs : valuesWith received (ms ++ [.prim x p w]) = some (vs ++ [.prim (received w)]) := by
    clear hm hp
    induction ms generalizing vs ps with
    | nil => simp only [valuesWith, Option.some.injEq] at hv; subst hv; rfl
    | cons m ms ih =>
      obtain ⟨q, qs, rfl, h3, h4⟩ := h
      rw [valuesWith] at hv
      rw [List.cons_append, valuesWith]
      cases h5 : memberWith received m with
      | none => rw [h5] at hv; simp at hv
      | some y =>
        cases h6 : valuesWith received ms with
        | none => rw [h5, h6] at hv; simp at hv
        | some ys =>
          rw [h5, h6] at hv
          simp only [Option.some.injEq] at hv
          subst hv
          rw [ih qs h4 ys h6]
          rfl
  apply deserialise_props
  · exact classes_matchedAll _ _ hm
  · exact hp
  · intro u
    have hat := at_first (memberTrees (ms ++ [.prim x p w])) [] u
    rw [List.append_nil] at hat
    obtain ⟨c', h1, h2, h3⟩ := reads_members _ _ hm _ hvs [] _ hat
    have hl : (memberTrees (ms ++ [.prim x p w])).getLast? = some (primNode w) := by
      rw [memberTrees_append]; simp [memberTrees, memberTree]
    obtain ⟨h4, h5⟩ := h3 rfl _ hl
    refine ⟨c', ?_, (Cursor.next_keeps _).trans h2⟩
    rw [readProps_append _ _ _ _ _ h1 _ _ (readProps_again w p' k c' h4 h5)]
    simp [List.replicate_succ]

example : ((serialise (inn 3)).bind fun ns =>
      (deserialise (.obj false (.mk [.prim false .int, .prim false .int])) ⟨[], ns.head?, [], []⟩).1)
    = .ok (.obj [.prim (.int 3), .prim (.int 3)]) := by decide +kernel

/-! ### C54: containers -/

private theorem elemTree_type (e : Elem) : (elemTree e).val.type ≠ .list := by
  cases e with
  | prim v => cases v <;> simp [elemTree, primNode, Node.val, Atom.type]
  | nullPrim t => simp [elemTree, Node.val, Atom.type]
  | obj o =>
    obtain ⟨f, v, ks, h⟩ := objTree_described o
    simp [elemTree, h, describedNode, Node.val, Atom.type]

private theorem vector_throws (n f : Str) (es : List Elem) (c : Cursor) (hc : c.cur = some (objTree (.list n f es))) :
    (readProp .vector c).1 = .throw "Expected a List" := by
  rw [objTree] at hc
  obtain ⟨c2, hs, hk, hst, hcur⟩ := startRead_described c f _ hc
  rw [readProp]
  unfold composite
  rw [hst]
  simp only
  have he : c2.enter = ⟨[], none, elemTrees es, (c2.prev, .list, c2.rest) :: c2.up⟩ := by simp [Cursor.enter, hcur]
  have ht : c2.enter.next.2.type ≠ .list := by
    rw [he]
    cases es with
    | nil => simp [elemTrees, Cursor.next, Cursor.type]
    | cons e es => rw [elemTrees]; exact elemTree_type e
  rw [bind_of_throw (p := attestList) (attest_no ht)]

/-- **C54 is violated, always**: an object with a vector property, of any elements, also none, is serialised, but
reading it with its class throws. -/
theorem C54_vectors_violated (ps qs : List PropShape) (n f x t ln lf : Str) (ms : List Member) (es : List Elem)
    (extra : List Member) (ptr pv : Bool) (h : MatchesAll ps ms) (vs : List RVal)
    (hv : valuesWith received ms = some vs) (ns : List Node)
    (hs : serialise (.comp n f (ms ++ .obj x t pv (.list ln lf es) :: extra)) = .ok ns) :
    ∃ a, ns = [a] ∧ (deserialise (.obj ptr (.mk (ps ++ .vector :: qs))) (Cursor.root a)).1 = .throw "Expected a List" := by
  obtain ⟨ts, rfl⟩ := C30_blob _ ns hs
  refine ⟨_, rfl, ?_⟩
  rw [deserialise_at]
  have hmt : memberTrees (ms ++ .obj x t pv (.list ln lf es) :: extra)
      = memberTrees ms ++ (objTree (.list ln lf es) :: memberTrees extra) := by
    rw [memberTrees_append]; rfl
  generalize hcc : (⟨[], some (objTree (.comp n f (ms ++ .obj x t pv (.list ln lf es) :: extra))), _, _⟩ : Cursor) = c
  have hc : c.cur = some (describedNode f .list (memberTrees ms ++ (objTree (.list ln lf es) :: memberTrees extra))) := by
    rw [← hcc, ← hmt, objTree]
  obtain ⟨c2, hs, hk, hst, hcur⟩ := startRead_described c f _ hc
  rw [readProp]
  unfold composite
  rw [hst]
  simp only
  have he : c2.enter = ⟨[], none, memberTrees ms ++ (objTree (.list ln lf es) :: memberTrees extra),
      (c2.prev, .list, c2.rest) :: c2.up⟩ := by simp [Cursor.enter, hcur]
  rw [he]
  generalize hu : (c2.prev, Atom.list, c2.rest) :: c2.up = u
  suffices hsuf : ∃ c', readProps ps (⟨[], none, memberTrees ms ++ (objTree (.list ln lf es) :: memberTrees extra), u⟩ : Cursor).next.2
      = (.ok vs, c') ∧ c'.cur = some (objTree (.list ln lf es)) by
    obtain ⟨c', h1, h2⟩ := hsuf
    have h3 := vector_throws ln lf es c' h2
    have h4 : (readProps (.vector :: qs) c').1 = .throw "Expected a List" := by
      rw [readProps, bind_def]
      cases hr : readProp .vector c' with
      | mk r c3 => rw [hr] at h3; simp only at h3; subst h3; rfl
    have h5 := readProps_append ps (.vector :: qs) _ c' vs h1 _ _ (Prod.eta (readProps (.vector :: qs) c')).symm
    rw [h4] at h5
    rw [readShape, bind_def, h5]
    rfl
  -- where reading the properties before it stops
  clear hs hk hst hcur he hu hcc hc hmt c2 c
  suffices hgen : ∀ (ps : List PropShape) (ms : List Member) (vs : List RVal), MatchesAll ps ms →
      valuesWith received ms = some vs → ∀ (x : Node) (more : List Node) (c : Cursor),
      At (memberTrees ms ++ [x]) more c → ∃ c', readProps ps c = (.ok vs, c') ∧ c'.cur = some x by
    apply hgen ps ms vs h hv _ (memberTrees extra)
    have := at_first (memberTrees ms ++ [objTree (.list ln lf es)]) (memberTrees extra) u
    simpa using this
  intro ps ms
  induction ms generalizing ps with
  | nil =>
    intro vs h hv x more c hat
    simp only [MatchesAll] at h
    subst h
    simp only [valuesWith, Option.some.injEq] at hv
    subst hv
    exact ⟨c, rfl, hat.1⟩
  | cons m ms ih =>
    intro vs h hv x more c hat
    obtain ⟨q, qs', rfl, h3, h4⟩ := h
    rw [valuesWith] at hv
    cases h5 : memberWith received m with
    | none => rw [h5] at hv; simp at hv
    | some y =>
      cases h6 : valuesWith received ms with
      | none => rw [h5, h6] at hv; simp at hv
      | some ys =>
        rw [h5, h6] at hv
        simp only [Option.some.injEq] at hv
        subst hv
        rw [memberTrees, List.cons_append] at hat
        obtain ⟨c', h7, h8⟩ := ih qs' ys h4 h6 x more c.next.2 hat.next
        exact ⟨c', by rw [readProps_cons (reads_member q m h3 y h5) c hat.1, h7], h8⟩

example : ((serialise (.comp "C".toList "f".toList [.obj "v".toList "java.util.List<int>".toList false
        (.list "java.util.List<int>".toList "fl".toList [.prim (.int 1)])])).bind fun ns =>
      (deserialise (.obj false (.mk [.vector])) ⟨[], ns.head?, [], []⟩).1)
    = .throw "Expected a List" := by decide +kernel

/-! ### C55: any payload -/

mutual

/-- The class has no strings and no vectors. -/
def Plain : Shape → Prop
  | .mk ps => PlainAll ps

def PlainProp : PropShape → Prop
  | .prim _ t => t ≠ .string
  | .obj _ s => Plain s
  | .vector => False

def PlainAll : List PropShape → Prop
  | [] => True
  | p :: ps => PlainProp p ∧ PlainAll ps

end

private theorem defined_bind {α β : Type} {p : Prog α} {f : α → Prog β} (hp : ∀ c, (p c).1.Defined)
    (hf : ∀ a c, (f a c).1.Defined) : ∀ c, ((p >>= f) c).1.Defined := by
  intro c
  have h := hp c
  rw [bind_def]
  cases hr : p c with
  | mk r c' =>
    rw [hr] at h
    cases r with
    | ok a => exact hf a c'
    | throw m => trivial
    | ub w => exact h

private theorem defined_attest (t : PnType) (m : String) (c : Cursor) : (attest t m c).1.Defined := by
  unfold attest; split <;> trivial

private theorem defined_enterFirst (c : Cursor) : (enterFirst c).1.Defined := trivial

private theorem defined_readUint64 (c : Cursor) : (readUint64 c).1.Defined := trivial

private theorem defined_startRead (c : Cursor) : (startRead c).1.Defined := by
  unfold startRead
  exact defined_bind (defined_attest _ _) (fun _ => defined_bind defined_enterFirst fun _ =>
    defined_bind defined_readUint64 fun _ => defined_bind (defined_attest _ _) fun _ => defined_enterFirst) c

private theorem defined_composite {α : Type} {body : Prog α} (h : ∀ c, (body c).1.Defined) (c : Cursor) :
    (composite body c).1.Defined := by
  have hs := defined_startRead c
  unfold composite
  cases hr : startRead c with
  | mk r c' =>
    rw [hr] at hs
    cases r with
    | ok a => exact h c'
    | throw m => trivial
    | ub w => exact hs

mutual

private theorem defined_shape : (s : Shape) → Plain s → ∀ c, (readShape s c).1.Defined
  | .mk ps => by
    intro h
    rw [readShape]
    exact defined_bind (defined_props ps h) fun _ _ => trivial

private theorem defined_prop : (p : PropShape) → PlainProp p → ∀ c, (readProp p c).1.Defined
  | .prim ptr t => by
    intro h c
    rcases (C36_typed_reads_partial t h ptr c).2 with ⟨⟨m, hm⟩, -⟩ | ⟨v, hv, -⟩
    · rw [hm]; trivial
    · rw [hv]; trivial
  | .obj _ s => by
    intro h
    rw [readProp]
    exact defined_composite (defined_shape s h)
  | .vector => by intro h; exact absurd h (by simp [PlainProp])

private theorem defined_props : (ps : List PropShape) → PlainAll ps → ∀ c, (readProps ps c).1.Defined
  | [] => by intro _ c; trivial
  | p :: ps => by
    intro h
    rw [readProps]
    exact defined_bind (defined_prop p h.1) fun _ => defined_bind (defined_props ps h.2) fun _ _ => trivial

end

/-- **C55, partial.** For classes without strings and vectors, deserialising from any tree, with the cursor anywhere,
has no undefined behaviour.  Missing: strings (on a value that is none) and vectors (on a list of lists). -/
theorem C55_any_payload_partial (s : Shape) (h : Plain s) (ptr : Bool) (c : Cursor) :
    (deserialise (.obj ptr s) c).1.Defined := by
  unfold deserialise
  refine defined_bind ?_ (fun _ => defined_prop (.obj ptr s) h) c
  unfold readyPayload
  exact defined_bind (defined_attest _ _) fun _ => defined_bind defined_enterFirst fun _ =>
    defined_bind defined_readUint64 fun _ => defined_bind (defined_attest _ _) fun _ =>
    defined_bind defined_enterFirst fun _ => defined_bind (defined_attest _ _) fun _ _ => trivial

/-- **C55 is violated**: a payload with an `int` where the class has a string; a list of lists where it has a vector. -/
theorem C55_any_payload_violated :
    (deserialise (.obj false (.mk [.prim false .string])) (Cursor.root
      (envelopeTree (describedNode "f".toList .list [.mk (.int 1) []]) (schemaTree []) (.mk .null [])))).1.IsUB
    ∧ (deserialise (.obj false (.mk [.vector])) (Cursor.root
      (envelopeTree (describedNode "f".toList .list [describedNode "g".toList .list [.mk .list []]]) (schemaTree [])
        (.mk .null [])))).1.IsUB := by decide +kernel

example : (deserialise (.obj false innShape) ⟨[], none, [], []⟩).1 = .throw "Expected a Described type" := by
  decide +kernel

#print axioms C33_what_comes_back
#print axioms C33_object_round_trip_partial
#print axioms C33_object_round_trip_violated
#print axioms C34_null_pointers_violated
#print axioms C34_null_string_violated
#print axioms C35_string_received
#print axioms C35_strings_partial
#print axioms C35_strings_violated
#print axioms C36_typed_reads_partial
#print axioms C36_typed_reads_violated
#print axioms C37_repeatable_violated
#print axioms C52_other_class_violated
#print axioms C53_fewer_violated
#print axioms C53_more_violated
#print axioms C54_vectors_violated
#print axioms C55_any_payload_partial
#print axioms C55_any_payload_violated

end Corda.Props
