import Verif.Lemmas.ReadTrace
import Verif.Props.AnyObject

/-
C103: what the library prints while an object is deserialised.
-/

namespace Corda.Props
open Corda Spec ReadTrace

/-- **C103, the prints change nothing**: the outcome and the cursor are those of deserialising without them. -/
theorem C103_end (w : ReadCompiled) (p : NProp) (c : Cursor) : (TProg.deserialise w p c).1 = Prog.deserialise p.plain c := by
  have := congrFun (erase_deserialise w p) c
  exact this

/-- **C103.** Deserialising any class from any tree, with the cursor anywhere in it: the outcome and everything that is printed up to it, line
for line, whether there is an object, an exception or undefined behaviour in the end. -/
theorem C103_any (w : ReadCompiled) (p : NProp) (c : Cursor) :
    (TProg.deserialise w p c).1.1 = (objectSaid w p c.cur).res ∧ (TProg.deserialise w p c).2 = (objectSaid w p c.cur).out := by
  have key : IsT (ReadTrace.At c) (TProg.deserialise w p) id (objectSaid w p c.cur) (fun _ => True) := by
    unfold TProg.deserialise objectSaid
    refine ist_first w .factory 109 "109" _ _ (by decide) rfl ?_
    refine ist_bind (ist_readyPayload w rfl) fun _ _ => ?_
    intro x hx
    exact ((ist_readProp w p hx).post fun _ _ => trivial) x rfl
  obtain ⟨h1, h2, -⟩ := key c rfl
  refine ⟨?_, h2⟩
  rw [← h1]
  cases (TProg.deserialise w p c).1.1 <;> rfl

/-! ### The values -/

private theorem told_ok {α β : Type} {t : Told α} {k : α → Told β} {v : β} (h : (t >>= k).res = .ok v) :
    ∃ a, t.res = .ok a ∧ (k a).res = .ok v ∧ (t >>= k).out = t.out ++ (k a).out := by
  obtain ⟨r, o⟩ := t
  cases r with
  | ok a => exact ⟨a, rfl, h, rfl⟩
  | throw m => cases h
  | ub m => cases h

private theorem closed_ok {α : Type} {t : Told α} {l : List Str} {v : α} (h : (t.closed l).res = .ok v) :
    t.res = .ok v ∧ (t.closed l).out = t.out ++ l := by
  obtain ⟨r, o⟩ := t
  cases r with
  | ok a => exact ⟨h, rfl⟩
  | throw m => cases h
  | ub m => cases h

/-- The lines with the values of an object. -/
def valueLines (w : ReadCompiled) (v : RVal) : List Str := (primsIn v).map (primLine w)

private theorem sublist_right {α : Type} {a b : List α} (l : List α) (h : a.Sublist b) : a.Sublist (l ++ b) :=
  h.trans (List.sublist_append_right _ _)

private theorem sublist_left {α : Type} {a b : List α} (l : List α) (h : a.Sublist b) : a.Sublist (b ++ l) :=
  h.trans (List.sublist_append_left _ _)

mutual

private theorem values_prop (w : ReadCompiled) : (p : NProp) → (n : Option Node) → (v : RVal) → (valueSaid w p n).res = .ok v →
    (valueLines w v).Sublist (valueSaid w p n).out
  | .prim ptr t, n, v, h => by
    rw [valueSaid] at h ⊢
    obtain ⟨_, -, h, e⟩ := told_ok h; rw [e]; clear e; refine sublist_right _ ?_
    obtain ⟨_, -, h, e⟩ := told_ok h; rw [e]; clear e; refine sublist_right _ ?_
    obtain ⟨_, -, h, e⟩ := told_ok h; rw [e]; clear e; refine sublist_right _ ?_
    obtain ⟨h, e⟩ := closed_ok h; rw [e]; clear e; refine sublist_left _ ?_
    obtain ⟨x, -, h, e⟩ := told_ok h; rw [e]; clear e; refine sublist_right _ ?_
    cases h
    exact List.Sublist.refl _
  | .obj ptr name s, n, v, h => by
    rw [valueSaid] at h ⊢
    obtain ⟨_, -, h, e⟩ := told_ok h; rw [e]; clear e; refine sublist_right _ ?_
    obtain ⟨_, -, h, e⟩ := told_ok h; rw [e]; clear e; refine sublist_right _ ?_
    obtain ⟨ks, -, h, e⟩ := told_ok h; rw [e]; clear e; refine sublist_right _ ?_
    obtain ⟨h, e⟩ := closed_ok h; rw [e]; clear e; refine sublist_left _ ?_
    obtain ⟨_, -, h, e⟩ := told_ok h; rw [e]; clear e; refine sublist_right _ ?_
    obtain ⟨_, -, h, e⟩ := told_ok h; rw [e]; clear e; refine sublist_right _ ?_
    obtain ⟨x, hx, h, e⟩ := told_ok h; rw [e]; clear e; refine sublist_left _ ?_
    cases h
    exact values_class w s ks _ hx
  | .vector name, n, v, h => by
    rw [valueSaid] at h
    obtain ⟨_, -, h, -⟩ := told_ok h
    obtain ⟨_, -, h, -⟩ := told_ok h
    obtain ⟨_, -, h, -⟩ := told_ok h
    obtain ⟨h, -⟩ := closed_ok h
    obtain ⟨_, -, h, -⟩ := told_ok h
    obtain ⟨_, -, h, -⟩ := told_ok h
    obtain ⟨_, -, h, -⟩ := told_ok h
    obtain ⟨_, -, h, -⟩ := told_ok h
    cases h

private theorem values_class (w : ReadCompiled) : (s : NShape) → (ks : List Node) → (v : RVal) → (classSaid w s ks).res = .ok v →
    (valueLines w v).Sublist (classSaid w s ks).out
  | .mk ps, ks, v, h => by
    rw [classSaid] at h ⊢
    obtain ⟨vs, hp, h, e⟩ := told_ok h; rw [e]; clear e; refine sublist_left _ ?_
    cases h
    have := values_props w ps ks 0 vs hp
    rwa [valueLines, primsIn]

private theorem values_props (w : ReadCompiled) : (ps : List NProp) → (ks : List Node) → (i : Nat) → (vs : List RVal) →
    (propsSaid w ps ks i).res = .ok vs → ((primsInAll vs).map (primLine w)).Sublist (propsSaid w ps ks i).out
  | [], ks, i, vs, h => by
    rw [propsSaid] at h ⊢
    cases h
    exact List.nil_sublist _
  | p :: ps, ks, i, vs, h => by
    rw [propsSaid] at h ⊢
    obtain ⟨_, -, h, e⟩ := told_ok h; rw [e]; clear e; refine sublist_right _ ?_
    obtain ⟨x, hx, h, e⟩ := told_ok h; rw [e]; clear e
    obtain ⟨xs, hxs, h, e⟩ := told_ok h; rw [e]; clear e
    cases h
    rw [primsInAll, List.map_append]
    exact (values_prop w p _ x hx).append (sublist_left _ (values_props w ps ks _ xs hxs))

end

/-- **C103, every value is printed**: whatever is read is printed in the clear, each value on a line of its own and all of them in order,
those behind pointers too. -/
theorem C103_values (w : ReadCompiled) (p : NProp) (c : Cursor) (v : RVal) (h : (TProg.deserialise w p c).1.1 = .ok v) :
    (valueLines w v).Sublist (TProg.deserialise w p c).2 := by
  obtain ⟨h1, h2⟩ := C103_any w p c
  rw [h1] at h
  rw [h2]
  unfold objectSaid at h ⊢
  obtain ⟨_, -, h, e⟩ := told_ok h; rw [e]; clear e; refine sublist_right _ ?_
  obtain ⟨m, -, h, e⟩ := told_ok h; rw [e]; clear e; refine sublist_right _ ?_
  exact values_prop w p m v h

mutual

private theorem prims_value : (o : Obj) → (v : RVal) → valueWith received o = some v → primsIn v = (prims o).map received
  | .comp _ _ ms, v, h => by
    rw [valueWith] at h
    cases hm : valuesWith received ms with
    | none => rw [hm] at h; cases h
    | some vs =>
      rw [hm] at h
      cases h
      rw [primsIn, prims, prims_values ms vs hm]
  | .list _ _ _, v, h => by rw [valueWith] at h; cases h; intros; contradiction
  | .map _ _ _, v, h => by rw [valueWith] at h; cases h; intros; contradiction

private theorem prims_member : (m : Member) → (v : RVal) → memberWith received m = some v → primsIn v = (primsMember m).map received
  | .prim _ _ x, v, h => by
    rw [memberWith] at h
    cases h
    rw [primsIn, primsMember]; rfl
  | .nullPrim _ _, v, h => by rw [memberWith] at h; cases h
  | .obj _ _ _ o, v, h => by
    rw [memberWith] at h
    rw [primsMember]
    exact prims_value o v h
  | .nullObj _ _, v, h => by rw [memberWith] at h; cases h

private theorem prims_values : (ms : List Member) → (vs : List RVal) → valuesWith received ms = some vs →
    primsInAll vs = (primsMembers ms).map received
  | [], vs, h => by rw [valuesWith] at h; cases h; rw [primsInAll, primsMembers]; rfl
  | m :: ms, vs, h => by
    rw [valuesWith] at h
    cases h1 : memberWith received m with
    | none => rw [h1] at h; cases h
    | some x =>
      cases h2 : valuesWith received ms with
      | none => rw [h1, h2] at h; cases h
      | some xs =>
        rw [h1, h2] at h
        cases h
        rw [primsInAll, primsMembers, List.map_append, prims_member m x h1, prims_values ms xs h2]

end

/-- **C103, for what the library wrote**: of every object without null pointers that is serialised and read back with its class, all the
values are printed when it is read, even those that are not when it is written because they are behind pointers (C102). -/
theorem C103_read_back (w : ReadCompiled) (ptr : Bool) (name : Str) (s : NShape) (o : Obj) (h : Matches s.plain o) (hn : NoCharPointers o)
    (v : RVal) (hv : valueWith received o = some v) :
    ∃ n, serialise o = .ok [n]
      ∧ (((prims o).map received).map (primLine w)).Sublist (TProg.deserialise w (.obj ptr name s) (Cursor.root n)).2 := by
  obtain ⟨n, h1, h2⟩ := C33_what_comes_back s.plain o ptr h hn v hv
  refine ⟨n, h1, ?_⟩
  rw [← prims_value o v hv]
  refine C103_values w _ _ v ?_
  rw [C103_end w (.obj ptr name s) (Cursor.root n), NProp.plain]
  exact h2

/-! ### How many lines -/

/-- The classes print nothing of their own. -/
def Mute (w : ReadCompiled) : Prop := (∀ n, w.before n = []) ∧ ∀ n v, w.after n v = []

mutual

/-- The number of lines for a property, without what classes print of their own. -/
def linesFor : NProp → Nat
  | .prim _ _ => 5
  | .obj _ _ s => 9 + linesForClass s
  | .vector _ => 0

def linesForClass : NShape → Nat
  | .mk ps => linesForAll ps

def linesForAll : List NProp → Nat
  | [] => 0
  | p :: ps => 1 + linesFor p + linesForAll ps

end

private theorem listSaid_length {w : ReadCompiled} {n : Option Node} {ks : List Node} (h : (listSaid w n).res = .ok ks) :
    (listSaid w n).out.length = 1 := by
  unfold listSaid at h ⊢
  obtain ⟨_, -, h, e⟩ := told_ok h
  rw [e]; rfl

private theorem partsSaid_length {w : ReadCompiled} {n : Option Node} {ks : List Node} (h : (partsSaid w n).res = .ok ks) :
    (partsSaid w n).out.length = 4 := by
  unfold partsSaid at h ⊢
  obtain ⟨_, -, h, e⟩ := told_ok h; rw [e, List.length_append]; clear e
  obtain ⟨_, -, h, e⟩ := told_ok h; rw [e, List.length_append]; clear e
  obtain ⟨_, -, h, e⟩ := told_ok h; rw [e, List.length_append]; clear e
  obtain ⟨_, hl, h, e⟩ := told_ok h; rw [e, List.length_append, listSaid_length hl]; clear e
  rfl

mutual

private theorem length_prop (w : ReadCompiled) (hw : Mute w) : (p : NProp) → (n : Option Node) → (v : RVal) → (valueSaid w p n).res = .ok v →
    (valueSaid w p n).out.length = linesFor p
  | .prim ptr t, n, v, h => by
    rw [valueSaid] at h ⊢
    obtain ⟨_, -, h, e⟩ := told_ok h; rw [e, List.length_append]; clear e
    obtain ⟨_, -, h, e⟩ := told_ok h; rw [e, List.length_append]; clear e
    obtain ⟨_, -, h, e⟩ := told_ok h; rw [e, List.length_append]; clear e
    obtain ⟨h, e⟩ := closed_ok h; rw [e, List.length_append]; clear e
    obtain ⟨x, -, h, e⟩ := told_ok h; rw [e, List.length_append]; clear e
    rw [linesFor]; rfl
  | .obj ptr name s, n, v, h => by
    rw [valueSaid] at h ⊢
    obtain ⟨_, -, h, e⟩ := told_ok h; rw [e, List.length_append]; clear e
    obtain ⟨_, -, h, e⟩ := told_ok h; rw [e, List.length_append]; clear e
    obtain ⟨ks, hk, h, e⟩ := told_ok h; rw [e, List.length_append, partsSaid_length hk]; clear e
    obtain ⟨h, e⟩ := closed_ok h; rw [e, List.length_append]; clear e
    obtain ⟨_, -, h, e⟩ := told_ok h; rw [e, List.length_append]; clear e
    obtain ⟨_, -, h, e⟩ := told_ok h; rw [e, List.length_append]; clear e
    obtain ⟨x, hx, h, e⟩ := told_ok h; rw [e, List.length_append, length_class w hw s ks x hx]; clear e
    rw [linesFor]
    have hb : (w.before name).length = 0 := by rw [hw.1]; rfl
    have ha : (w.after name x).length = 0 := by rw [hw.2]; rfl
    have : ∀ b : Bool, (if b then saying w .nonPrim "55" ("read<".toList ++ name ++ ", true>".toList)
          else saying w .nonPrim "35" ("read<".toList ++ name ++ ", is_ptr 0>".toList)).out.length = 1 := by
      intro b; cases b <;> rfl
    rw [this]
    show 1 + (1 + (4 + (1 + ((w.before name).length + (_ + (w.after name x).length)) + 2))) = _
    omega
  | .vector name, n, v, h => by
    rw [valueSaid] at h
    obtain ⟨_, -, h, -⟩ := told_ok h
    obtain ⟨_, -, h, -⟩ := told_ok h
    obtain ⟨_, -, h, -⟩ := told_ok h
    obtain ⟨h, -⟩ := closed_ok h
    obtain ⟨_, -, h, -⟩ := told_ok h
    obtain ⟨_, -, h, -⟩ := told_ok h
    obtain ⟨_, -, h, -⟩ := told_ok h
    obtain ⟨_, -, h, -⟩ := told_ok h
    cases h

private theorem length_class (w : ReadCompiled) (hw : Mute w) : (s : NShape) → (ks : List Node) → (v : RVal) → (classSaid w s ks).res = .ok v →
    (classSaid w s ks).out.length = linesForClass s
  | .mk ps, ks, v, h => by
    rw [classSaid] at h ⊢
    obtain ⟨vs, hp, h, e⟩ := told_ok h; rw [e, List.length_append, length_props w hw ps ks 0 vs hp]; clear e
    rw [linesForClass]; rfl

private theorem length_props (w : ReadCompiled) (hw : Mute w) : (ps : List NProp) → (ks : List Node) → (i : Nat) → (vs : List RVal) →
    (propsSaid w ps ks i).res = .ok vs → (propsSaid w ps ks i).out.length = linesForAll ps
  | [], ks, i, vs, h => by rw [propsSaid, linesForAll]; rfl
  | p :: ps, ks, i, vs, h => by
    rw [propsSaid] at h ⊢
    obtain ⟨_, -, h, e⟩ := told_ok h; rw [e, List.length_append]; clear e
    obtain ⟨x, hx, h, e⟩ := told_ok h; rw [e, List.length_append, length_prop w hw p _ x hx]; clear e
    obtain ⟨xs, hxs, h, e⟩ := told_ok h; rw [e, List.length_append, length_props w hw ps ks _ xs hxs]; clear e
    rw [linesForAll]
    show 1 + (_ + (_ + 0)) = _
    omega

end

/-- **C103, how much is printed**: with classes that print nothing of their own, when there is an object in the end, the number of lines depends on its class alone, and on whether the
descriptor of the blob is that of an envelope. -/
theorem C103_lines (w : ReadCompiled) (hw : Mute w) (p : NProp) (c : Cursor) (v : RVal) (h : (TProg.deserialise w p c).1.1 = .ok v) :
    (TProg.deserialise w p c).2.length
      = 5 + (if numberIn (nth (kidsOf c.cur) 0) % 2 ^ 32 = 1 then 0 else 1) + linesFor p := by
  obtain ⟨h1, h2⟩ := C103_any w p c
  rw [h1] at h
  rw [h2]
  unfold objectSaid at h ⊢
  obtain ⟨_, -, h, e⟩ := told_ok h; rw [e, List.length_append]; clear e
  obtain ⟨m, hm, h, e⟩ := told_ok h; rw [e, List.length_append, length_prop w hw p m v h]; clear e
  unfold payloadSaid at hm ⊢
  obtain ⟨_, -, hm, e⟩ := told_ok hm; rw [e, List.length_append]; clear e
  obtain ⟨ks, hk, hm, e⟩ := told_ok hm; rw [e, List.length_append]; clear e
  have hks : kidsOf c.cur = ks := by rw [described_some hk]; rfl
  rw [hks]
  obtain ⟨_, -, hm, e⟩ := told_ok hm; rw [e, List.length_append]; clear e
  obtain ⟨_, -, hm, e⟩ := told_ok hm; rw [e, List.length_append]; clear e
  obtain ⟨_, hl, hm, e⟩ := told_ok hm; rw [e, List.length_append, listSaid_length hl]; clear e
  obtain ⟨_, -, hm, e⟩ := told_ok hm; rw [e, List.length_append]; clear e
  obtain ⟨_, -, hm, e⟩ := told_ok hm; rw [e, List.length_append]; clear e
  have hi : (if numberIn (nth ks 0) % 2 ^ 32 = 1 then (pure () : Told Unit) else saying w .blob "340" ("Strip Key ".toList
      ++ dec (numberIn (nth ks 0) % 2 ^ 32) ++ " != 1".toList)).out.length = if numberIn (nth ks 0) % 2 ^ 32 = 1 then 0 else 1 := by
    split <;> rfl
  rw [hi]
  show 1 + (1 + (0 + (1 + (_ + (1 + (0 + (1 + 0)))))) + _) = _
  omega

/-! ### Examples -/

private def aloud : ReadCompiled :=
  { file := fun s => match s with
      | .factory => "SF.h".toList | .readers => "SFR.h".toList | .nonPrim => "RNP.h".toList | .prims => "PTS.h".toList
      | .blob => "AB.cxx".toList | .wrapper => "pw.cxx".toList | .vector => "SV.h".toList
    primName := fun t => match t with | .int => "int".toList | .string => "std::string".toList | _ => "?".toList
    float := fun _ => "f".toList
    double := fun _ => "d".toList
    before := fun _ => []
    after := fun _ _ => [] }

private def secretive : NProp := .obj false "A".toList (.mk [.prim false .int, .prim true .string])

private def sealed (parts : List Node) : Cursor :=
  .root (.mk .described [.mk (.ulong 1) [], .mk .list [.mk .described [.mk (.symbol "fp".toList) [], .mk .list parts]]])

/-- A class with an `int` and a `std::string *`: both values are printed, the fingerprint too, with a blank after each character. -/
example : (TProg.deserialise aloud secretive (sealed [.mk (.int 7) [], .mk (.string "secret".toList) []])).2 =
    ["[SF.h::109] deserialise:-:A\n".toList,
     "[AB.cxx::329] readyPayload\n".toList,
     "[AB.cxx::336] KEY == 1\n".toList,
     "[pw.cxx::299] YEP! it's a list\n".toList,
     "[AB.cxx::348] readyPayload::21 PN_SYMBOL 2\n   -> f p  UNKNOWN\n".toList,
     "[SFR.h::64] read::Composite::A\n".toList,
     "[SFR.h::70] AutoComposite\n".toList,
     "[AB.cxx::358] startComposite\n".toList,
     "[AB.cxx::362] startComposite::UNKNOWN 0\n".toList,
     "[pw.cxx::299] YEP! it's a list\n".toList,
     "[AB.cxx::364] startComposite:: list sz 2\n".toList,
     "[RNP.h::35] read<A, is_ptr 0>\n".toList,
     "[SF.h::93] read - int\n".toList,
     "[SFR.h::50] read::Primitive::int\n".toList,
     "[SFR.h::40] AutoPrim\n".toList,
     "[AB.cxx::386] startPrim\n".toList,
     "[PTS.h::58] PrimToSerializer<int>::get - return 7\n".toList,
     "[SFR.h::45] ~AutoPrim\n".toList,
     "[SF.h::93] read - std::string\n".toList,
     "[SFR.h::50] read::Primitive::std::string\n".toList,
     "[SFR.h::40] AutoPrim\n".toList,
     "[AB.cxx::386] startPrim\n".toList,
     "[PTS.h::77] PrimToSerializer<std::string>::get - return secret\n".toList,
     "[SFR.h::45] ~AutoPrim\n".toList,
     "[SFR.h::75] ~AutoComposite\n".toList,
     "[AB.cxx::375] endComposite\n".toList] := by decide +kernel

/-- With a string where the number should be there is an exception; the scopes are left with their lines, and no value is printed. -/
example : ((TProg.deserialise aloud secretive (sealed [.mk (.string "secret".toList) []])).1.1,
      (TProg.deserialise aloud secretive (sealed [.mk (.string "secret".toList) []])).2.drop 12) =
    (.throw "Expected an Integer type",
     ["[SF.h::93] read - int\n".toList,
      "[SFR.h::50] read::Primitive::int\n".toList,
      "[SFR.h::40] AutoPrim\n".toList,
      "[AB.cxx::386] startPrim\n".toList,
      "[SFR.h::45] ~AutoPrim\n".toList,
      "[SFR.h::75] ~AutoComposite\n".toList,
      "[AB.cxx::375] endComposite\n".toList]) := by decide +kernel

/-- A class that says something itself: before it reads, after, and when it is made. -/
example : (TProg.deserialise { aloud with before := fun _ => ["in\n".toList], after := fun _ _ => ["out\n".toList, "made\n".toList] }
      (.obj false "B".toList (.mk [.prim false .int])) (sealed [.mk (.int 7) []])).2.drop 11 =
    ["[RNP.h::35] read<B, is_ptr 0>\n".toList,
     "in\n".toList,
     "[SF.h::93] read - int\n".toList,
     "[SFR.h::50] read::Primitive::int\n".toList,
     "[SFR.h::40] AutoPrim\n".toList,
     "[AB.cxx::386] startPrim\n".toList,
     "[PTS.h::58] PrimToSerializer<int>::get - return 7\n".toList,
     "[SFR.h::45] ~AutoPrim\n".toList,
     "out\n".toList,
     "made\n".toList,
     "[SFR.h::75] ~AutoComposite\n".toList,
     "[AB.cxx::375] endComposite\n".toList] := by decide +kernel

/-- 26 lines, as above. -/
example : 5 + 0 + linesFor secretive = 26 := by decide +kernel

/-- A `float` is called a `bool`. -/
example : primLine aloud (.float 1) = "[PTS.h::115] PrimToSerializer<bool>::get - return f\n".toList := by decide +kernel

end Corda.Props

#print axioms Corda.Props.C103_end
#print axioms Corda.Props.C103_any
#print axioms Corda.Props.C103_values
#print axioms Corda.Props.C103_read_back
#print axioms Corda.Props.C103_lines
