import Verif.Spec.Processes
import Verif.Props.ReadTrace
import Verif.Props.WriteTrace
import Verif.Props.Programs

/-
C104: reader-test-01.  C105: the programs that write and read back.  C106: the programs that write.
-/

namespace Corda.Props
open Corda Spec Programs

private theorem file_made (world : World) (path : Str) (n : Node) : Programs.saved world path n = fileMade world path n := by
  have : (CordaBytes.ofBlob (world.encode n)).toFile = magic ++ 0 :: world.encode n := by
    have : (AMQP_HEADERS[1]'(by decide)).take 7 = magic := by decide
    simp [CordaBytes.toFile, CordaBytes.ofBlob, this]
  rw [Programs.saved, fileMade, this]

private theorem saving_line (f : ProgFiles) (path : Str) : toFileTold f path = savingLine f path :=
  TWr.line_eq _ _ _ _ (by decide)

private theorem names_asked (f : ProgFiles) (n : Str) (s : String) (h : s.toList = n) (hj : javaClassName n = n) :
    nameTold f n = namesAsked f s := by
  rw [nameTold, namesAsked, hj, h, TWr.line_eq _ _ _ "125".toList (by decide), TWr.line_eq _ _ _ "138".toList (by decide)]

private theorem names_outer (f : ProgFiles) : nameTold f nOuter = namesAsked f "Outer" := names_asked f _ _ rfl (by decide +kernel)
private theorem names_inner (f : ProgFiles) : nameTold f nInner = namesAsked f "Inner" := names_asked f _ _ rfl (by decide +kernel)
private theorem names_me (f : ProgFiles) : nameTold f nDSM = namesAsked f "DeSerialiseMe" := names_asked f _ _ rfl (by decide +kernel)
private theorem names_int (f : ProgFiles) : nameTold f "int".toList = namesAsked f "int" := names_asked f _ _ rfl (by decide +kernel)

/-! ### C104: reader-test-01 -/

private theorem split8' {b : List Byte} (h : 8 ≤ b.length) : ∃ hdr e rest, b = hdr ++ e :: rest ∧ hdr.length = 7 := by
  refine ⟨b.take 7, b[7]'(by omega), b.drop 8, ?_, by simp; omega⟩
  rw [← List.drop_eq_getElem_cons, List.take_append_drop]

private theorem loaded_iff {sys : System} (hs : FilesFit sys) (path : Str) (c : Cursor) :
    (∃ cb, CordaBytes.load {} (sys.file path) = .ok cb ∧ AMQPBlob.make sys cb = .ok c) ↔ ∃ n, HoldsTree sys path n ∧ c = Cursor.root n := by
  constructor
  · rintro ⟨cb, h1, h2⟩
    cases hf : sys.file path with
    | none => rw [hf] at h1; cases h1
    | some b =>
      rw [hf] at h1
      by_cases h8 : 8 ≤ b.length
      · obtain ⟨hdr, e, rest, rfl, hl⟩ := split8' h8
        rw [load_eq {} (.inr rfl) hdr hl e rest (hs _ _ hf)] at h1
        split at h1
        · rename_i hm
          split at h1
          · rename_i he
            cases h1
            unfold AMQPBlob.make at h2
            simp only at h2
            split at h2
            · rename_i u n hd
              split at h2
              · rename_i hu
                cases h2
                subst hu
                refine ⟨n, ⟨e, rest, he, ?_, hd⟩, rfl⟩
                rcases hm with hm | hm
                · cases hm
                · rw [hf, hm]
              · cases h2
            · cases h2
          · split at h1 <;> cases h1
        · cases h1
      · exact absurd h1 (load_short_not_ok (.inr rfl) (by omega) cb)
  · rintro ⟨n, ⟨e, payload, he, hf, hd⟩, rfl⟩
    refine ⟨⟨e, payload.length, payload⟩, ?_, ?_⟩
    · rw [hf, load_eq {} (.inr rfl) magic magic_length e payload (hs _ _ hf), if_pos (.inr rfl), if_pos he]
    · unfold AMQPBlob.make
      simp only [hd, if_true]

/-- What `main` does when there is a tree. -/
private theorem reader_tree {sys : System} (hs : FilesFit sys) {path : Str} {n : Node} (h : HoldsTree sys path n) (w : ReadCompiled) (p : NProp)
    (shown : RVal → List Str) :
    readerMain w sys p shown [path] = match (objectSaid w p (some n)).res with
      | .ok v => ⟨.exit 0 (shown v).flatten, (objectSaid w p (some n)).out ++ shown v, []⟩
      | .throw _ => ⟨.terminated, (objectSaid w p (some n)).out, []⟩
      | .ub m => ⟨.ub m, (objectSaid w p (some n)).out, []⟩ := by
  obtain ⟨cb, h1, h2⟩ := (loaded_iff hs path _).2 ⟨n, h, rfl⟩
  obtain ⟨k1, k2⟩ := C103_any w p (Cursor.root n)
  have hc : (Cursor.root n).cur = some n := rfl
  rw [hc] at k1 k2
  unfold readerMain
  simp only [h1, h2]
  rw [← k1, ← k2]
  generalize TProg.deserialise w p (Cursor.root n) = x
  obtain ⟨⟨r, c⟩, out⟩ := x
  cases r <;> rfl

/-- What it does when there is none. -/
private theorem reader_no_tree {sys : System} (hs : FilesFit sys) {path : Str} (h : ¬ ∃ n, HoldsTree sys path n) (w : ReadCompiled) (p : NProp)
    (shown : RVal → List Str) :
    (readerMain w sys p shown [path] = ⟨.terminated, [], []⟩) ∨ ∃ m, readerMain w sys p shown [path] = ⟨.ub m, [], []⟩ := by
  unfold readerMain
  simp only
  cases h1 : CordaBytes.load {} (sys.file path) with
  | throw m => exact .inl rfl
  | ub m => exact .inr ⟨m, rfl⟩
  | ok cb =>
    cases h2 : AMQPBlob.make sys cb with
    | throw m => exact .inl (by simp only [h2])
    | ub m => exact .inr ⟨m, by simp only [h2]⟩
    | ok c =>
      obtain ⟨n, hn, -⟩ := (loaded_iff hs path c).1 ⟨cb, h1, h2⟩
      exact absurd ⟨n, hn⟩ h

private theorem valueOf_prim {n : Option Node} {a : Int} : primAt .int n = .ok (.int a) ↔ valueOf n = some (.int a) := by
  unfold primAt
  constructor
  · intro h
    split at h <;> simp_all
  · intro h
    rw [h]

private theorem prim_int {n : Option Node} {v : Prim} (h : primAt .int n = .ok v) : ∃ a, v = .int a ∧ valueOf n = some (.int a) := by
  unfold primAt at h
  split at h <;> simp_all

/-- What reader-test-01 reads from a tree. -/
private theorem reads01 (w : ReadCompiled) (n : Node) (v : RVal) :
    (objectSaid w class01 (some n)).res = .ok v ↔ ∃ a b, FirstInts n a b ∧ v = .obj [.prim (.int a), .prim (.int b)] := by
  have h0 : (objectSaid w class01 (some n)).res = objectFrom (.obj false reader01) (some n) := by
    have h1 := (C103_any w class01 (Cursor.root n)).1
    have h2 := C103_end w class01 (Cursor.root n)
    have h3 := C88_any (.obj false reader01) (Cursor.root n)
    have hc : (Cursor.root n).cur = some n := rfl
    rw [hc] at h1 h3
    rw [← h1, h2, ← h3]
    rfl
  rw [h0, objectFrom, payloadPart]
  simp only [bind_ok_iff, objectParts_ok, describedParts_ok, reader01, valueRead, classAs, propsAs]
  constructor
  · rintro ⟨m, ⟨ls, ⟨ks, h1, h2⟩, es, h3, h4⟩, vs, ⟨es', h5, h6⟩, ws, ⟨x, ⟨p, hp, hx⟩, xs, ⟨y, ⟨q, hq, hy⟩, ys, hys, hxs⟩, hws⟩, hv⟩
    cases h4; cases hx; cases hy; cases hys; cases hxs; cases hws; cases hv
    obtain ⟨a, rfl, ha⟩ := prim_int hp
    obtain ⟨b, rfl, hb⟩ := prim_int hq
    exact ⟨a, b, ⟨ks, ls, es', vs, by simpa using h1, h2, h5, h6, ha, hb⟩, rfl⟩
  · rintro ⟨a, b, ⟨ks, ls, es, vs, rfl, h2, h3, h4, h5, h6⟩, rfl⟩
    exact ⟨_, ⟨ls, ⟨ks, rfl, h2⟩, es, h3, rfl⟩, vs, ⟨es, h3, h4⟩, _, ⟨_, ⟨_, valueOf_prim.2 h5, rfl⟩, _,
      ⟨_, ⟨_, valueOf_prim.2 h6, rfl⟩, _, rfl, rfl⟩, rfl⟩, rfl⟩

/-- The two lines at the end. -/
def shownInts (a b : Int) : List Str := [decimal a ++ ", ".toList ++ decimal b ++ "\n".toList, "Fingerprint = DSM123\n".toList]

private theorem shown01_eq (a b : Int) : shown01 (.obj [.prim (.int a), .prim (.int b)]) = shownInts a b := by
  show [intStr a ++ ", ".toList ++ intStr b ++ nl, "Fingerprint = ".toList ++ fDSM123 ++ nl] = _
  rw [intStr_eq, intStr_eq]
  rfl

private theorem flat (a b : Int) :
    decimal a ++ ", ".toList ++ decimal b ++ "\nFingerprint = DSM123\n".toList = (shownInts a b).flatten := by
  show _ = decimal a ++ ", ".toList ++ decimal b ++ "\n".toList ++ ("Fingerprint = DSM123\n".toList ++ [])
  simp only [List.append_nil, List.append_assoc]
  rfl

/-- **C104.** reader-test-01 ends with success and shows this exactly if it is given the name of a file with the header, any of the three
section numbers and a tree whose payload is an object with two numbers in front; those are shown, and the fingerprint of the class (not that
in the file). -/
theorem C104_shows (r : ReadCompiled) (f : ProgFiles) (sys : System) (hs : FilesFit sys) (args : List Str) (text : Str) :
    (readerTest01 r f sys args).ended = .exit 0 text ↔
      ∃ path n a b, args = [path] ∧ HoldsTree sys path n ∧ FirstInts n a b ∧ text = (shownInts a b).flatten := by
  constructor
  · intro h
    unfold readerTest01 at h
    match args, h with
    | [path], h =>
      by_cases ht : ∃ n, HoldsTree sys path n
      · obtain ⟨n, hn⟩ := ht
        rw [reader_tree hs hn] at h
        cases hr : (objectSaid (compiled01 r f) class01 (some n)).res with
        | throw m => rw [hr] at h; cases h
        | ub m => rw [hr] at h; cases h
        | ok v =>
          obtain ⟨a, b, h1, rfl⟩ := (reads01 _ _ _).1 hr
          rw [hr] at h
          simp only [shown01_eq, Ended.exit.injEq, true_and] at h
          exact ⟨path, n, a, b, rfl, hn, h1, h.symm⟩
      · rcases reader_no_tree hs ht (compiled01 r f) class01 shown01 with h' | ⟨m, h'⟩ <;> rw [h'] at h <;> cases h
    | [], h => cases h
    | _ :: _ :: _, h => cases h
  · rintro ⟨path, n, a, b, rfl, hn, h1, rfl⟩
    unfold readerTest01
    rw [reader_tree hs hn, (reads01 _ _ _).2 ⟨a, b, h1, rfl⟩]
    simp only [shown01_eq]

/-- **C104, all it prints** when it succeeds: what the library and the class say while the object is read, and the two lines. -/
theorem C104_output (r : ReadCompiled) (f : ProgFiles) (sys : System) (hs : FilesFit sys) (path : Str) (n : Node) (a b : Int)
    (hn : HoldsTree sys path n) (h : FirstInts n a b) :
    readerTest01 r f sys [path] = ⟨.exit 0 (shownInts a b).flatten,
      (objectSaid (compiled01 r f) class01 (some n)).out ++ shownInts a b, []⟩ := by
  unfold readerTest01
  rw [reader_tree hs hn, (reads01 _ _ _).2 ⟨a, b, h, rfl⟩]
  simp only [shown01_eq]

/-- **C104, partial.** A file with the header, a zero and a tree whose payload is an object with at least two values, the first two of which are
numbers: those are shown.  Missing: that nothing else is shown, of which one number is, and data that say they are compressed. -/
theorem C104_two_numbers_partial (r : ReadCompiled) (f : ProgFiles) (sys : System) (hs : FilesFit sys) (path : Str) (fp id : Node) (a b : Int)
    (more rest behind beyond : List Node)
    (h : HoldsBlob sys path (.mk .described (id :: .mk .list (.mk .described (fp :: .mk .list (.mk (.int a) [] :: .mk (.int b) [] :: more) :: behind)
      :: rest) :: beyond))) :
    (readerTest01 r f sys [path]).ended = .exit 0 (decimal a ++ ", ".toList ++ decimal b ++ "\nFingerprint = DSM123\n".toList) := by
  obtain ⟨payload, hf, hd⟩ := h
  have h0 : ∀ (x : Node) (l : List Node), nth (x :: l) 0 = some x := by intro x l; simp [nth]
  have h1 : ∀ (x y : Node) (l : List Node), nth (x :: y :: l) 1 = some y := by
    intro x y l
    have : min 1 ((x :: y :: l).length - 1) = 1 := by simp
    rw [nth, this]; rfl
  refine (C104_shows r f sys hs [path] _).2 ⟨path, _, a, b, rfl, ⟨0, payload, by decide, hf, hd⟩,
    ⟨_, _, _, _, rfl, h1 _ _ _, h0 _ _, h1 _ _ _, ?_, ?_⟩, flat a b⟩
  · rw [h0]; rfl
  · rw [h1]; rfl

/-- What the class says: its constructor has the name asked for and shows the numbers. -/
theorem C104_class (r : ReadCompiled) (f : ProgFiles) (a b : Int) :
    (compiled01 r f).before "DeSerialiseMe".toList = []
      ∧ (compiled01 r f).after "DeSerialiseMe".toList (.obj [.prim (.int a), .prim (.int b)]) = namesAsked f "DeSerialiseMe"
        ++ [remark f.own "35".toList ("m_val = ".toList ++ decimal a), remark f.own "36".toList ("m_val2 = ".toList ++ decimal b)] := by
  refine ⟨rfl, ?_⟩
  show nameTold f nDSM ++ [traceLine f.own 35 ("m_val = ".toList ++ intStr a), traceLine f.own 36 ("m_val2 = ".toList ++ intStr b)] = _
  rw [names_me, TWr.line_eq _ _ _ "35".toList (by decide), TWr.line_eq _ _ _ "36".toList (by decide), intStr_eq, intStr_eq]

/-- **C104, the other ends**: with the wrong number of arguments it does nothing and reports failure, and only then; everything else that is
no success is the end of an exception nobody catches, or undefined behaviour.  It never writes a file. -/
theorem C104_otherwise (r : ReadCompiled) (f : ProgFiles) (sys : System) (args : List Str) :
    (args.length ≠ 1 → readerTest01 r f sys args = turnedAway)
      ∧ (∀ text, (readerTest01 r f sys args).ended = .exit 1 text → args.length ≠ 1)
      ∧ (args.length = 1 → (∃ text, (readerTest01 r f sys args).ended = .exit 0 text) ∨ (readerTest01 r f sys args).ended = .terminated
        ∨ ∃ m, (readerTest01 r f sys args).ended = .ub m)
      ∧ (readerTest01 r f sys args).written = [] := by
  have key : ∀ path, ((∃ text, (readerTest01 r f sys [path]).ended = .exit 0 text) ∨ (readerTest01 r f sys [path]).ended = .terminated
      ∨ ∃ m, (readerTest01 r f sys [path]).ended = .ub m) ∧ (readerTest01 r f sys [path]).written = [] := by
    intro path
    unfold readerTest01 readerMain
    simp only
    cases CordaBytes.load {} (sys.file path) with
    | throw m => exact ⟨.inr (.inl rfl), rfl⟩
    | ub m => exact ⟨.inr (.inr ⟨m, rfl⟩), rfl⟩
    | ok cb =>
      simp only
      cases AMQPBlob.make sys cb with
      | throw m => exact ⟨.inr (.inl rfl), rfl⟩
      | ub m => exact ⟨.inr (.inr ⟨m, rfl⟩), rfl⟩
      | ok c =>
        simp only
        generalize TProg.deserialise (compiled01 r f) class01 c = x
        obtain ⟨⟨y, c⟩, out⟩ := x
        cases y with
        | ok v => exact ⟨.inl ⟨_, rfl⟩, rfl⟩
        | throw m => exact ⟨.inr (.inl rfl), rfl⟩
        | ub m => exact ⟨.inr (.inr ⟨m, rfl⟩), rfl⟩
  match args with
  | [] => exact ⟨fun _ => rfl, fun _ _ => by simp, fun h => by simp at h, rfl⟩
  | _ :: _ :: _ => exact ⟨fun _ => rfl, fun _ _ => by simp, fun h => by simp at h, rfl⟩
  | [path] =>
    obtain ⟨k1, k2⟩ := key path
    refine ⟨fun h => absurd rfl h, fun text h => ?_, fun _ => k1, k2⟩
    rcases k1 with ⟨_, h'⟩ | h' | ⟨_, h'⟩ <;> rw [h'] at h <;> cases h

/-- The bytes of an object with one number, 7. -/
private def lone : List Byte := [0x00, 0x53, 0x01, 0xc0, 0x0b, 0x01, 0x00, 0xa3, 0x02, 0x66, 0x70, 0xc0, 0x03, 0x01, 0x54, 0x07]

private def anyCompiler : ReadCompiled :=
  { file := fun _ => "f".toList, primName := fun _ => "int".toList, float := fun _ => [], double := fun _ => [],
    before := fun _ => [], after := fun _ _ => [] }

private def anyFiles : ProgFiles := ⟨"m".toList, "o".toList, "t".toList, "b".toList⟩

/-- **C104 is violated**: a file that holds one number is shown as if it held two, and so are files that say they are compressed. -/
theorem C104_violated : ∀ e : Byte, e = 0 ∨ e = 1 ∨ e = 2 →
    (readerTest01 anyCompiler anyFiles (holding (magic ++ e :: lone)) ["x".toList]).ended = .exit 0 "7, 7\nFingerprint = DSM123\n".toList := by
  rintro e (rfl | rfl | rfl) <;> decide +kernel

/-- All the program prints for a file with one number. -/
example : (readerTest01 anyCompiler anyFiles (holding (magic ++ 0 :: lone)) ["x".toList]).out.drop 12 =
    ["[f::93] read - int\n".toList, "[f::50] read::Primitive::int\n".toList, "[f::40] AutoPrim\n".toList, "[f::386] startPrim\n".toList,
     "[f::58] PrimToSerializer<int>::get - return 7\n".toList, "[f::45] ~AutoPrim\n".toList,
     "[f::93] read - int\n".toList, "[f::50] read::Primitive::int\n".toList, "[f::40] AutoPrim\n".toList, "[f::386] startPrim\n".toList,
     "[f::58] PrimToSerializer<int>::get - return 7\n".toList, "[f::45] ~AutoPrim\n".toList,
     "[t::125] javaTypeName = DeSerialiseMe\n".toList, "[t::138] javaTypeName RTN = DeSerialiseMe\n".toList,
     "[o::35] m_val = 7\n".toList, "[o::36] m_val2 = 7\n".toList,
     "[f::75] ~AutoComposite\n".toList, "[f::375] endComposite\n".toList,
     "7, 7\n".toList, "Fingerprint = DSM123\n".toList] := by decide +kernel

/-! ### C105: the programs that write and read back -/

private theorem roundTrip_eq (w : Compiled) (r : ReadCompiled) (f : ProgFiles) (world : World) (made : List Str) (o : Obj) (between : List Str)
    (p : NProp) (shown : RVal → List Str) {n : Node} {v : RVal} (hs : serialise o = .ok [n])
    (hd : (Prog.deserialise p.plain (Cursor.root n)).1 = .ok v) :
    roundTripMain w r f world made o between p shown [] = ⟨.exit 0 (shown v).flatten,
      made ++ (serialiseTold w o).2 ++ [savingLine f "serialized.bin".toList] ++ between ++ (objectSaid r p (some n)).out ++ shown v,
      fileMade world "serialized.bin".toList n⟩ := by
  have h1 : (serialiseTold w o).1 = .ok [n] := by rw [C102_end, hs]
  obtain ⟨-, k2⟩ := C103_any r p (Cursor.root n)
  have k1 := C103_end r p (Cursor.root n)
  have hc : (Cursor.root n).cur = some n := rfl
  rw [hc] at k2
  rw [← k1] at hd
  rw [← k2, ← file_made, ← saving_line]
  unfold roundTripMain
  simp only
  generalize serialiseTold w o = x at h1 ⊢
  obtain ⟨y, out⟩ := x
  cases h1
  simp only
  generalize TProg.deserialise r p (Cursor.root n) = z at hd ⊢
  obtain ⟨⟨y, c⟩, back⟩ := z
  cases hd
  rfl

private theorem roundTrip_throw (w : Compiled) (r : ReadCompiled) (f : ProgFiles) (world : World) (made : List Str) (o : Obj)
    (between : List Str) (p : NProp) (shown : RVal → List Str) {n : Node} {m : String} (hs : serialise o = .ok [n])
    (hd : (Prog.deserialise p.plain (Cursor.root n)).1 = .throw m) :
    roundTripMain w r f world made o between p shown [] = ⟨.terminated,
      made ++ (serialiseTold w o).2 ++ [savingLine f "serialized.bin".toList] ++ between ++ (objectSaid r p (some n)).out,
      fileMade world "serialized.bin".toList n⟩ := by
  have h1 : (serialiseTold w o).1 = .ok [n] := by rw [C102_end, hs]
  obtain ⟨-, k2⟩ := C103_any r p (Cursor.root n)
  have k1 := C103_end r p (Cursor.root n)
  have hc : (Cursor.root n).cur = some n := rfl
  rw [hc] at k2
  rw [← k1] at hd
  rw [← k2, ← file_made, ← saving_line]
  unfold roundTripMain
  simp only
  generalize serialiseTold w o = x at h1 ⊢
  obtain ⟨y, out⟩ := x
  cases h1
  simp only
  generalize TProg.deserialise r p (Cursor.root n) = z at hd ⊢
  obtain ⟨⟨y, c⟩, back⟩ := z
  cases hd
  rfl

/-- What a program that writes an object and reads it back is to do: report success; print what is said when the object is made, when it is
written (C102), saved, read (C103), and in the end these lines; and leave the file with the object. -/
def WritesAndReads (made : List String) (w : Compiled) (r : ReadCompiled) (f : ProgFiles) (world : World) (o : Obj) (p : NProp) (line : String)
    (shown : List Str) (run : Process) : Prop :=
  ∃ n, serialise o = .ok [n] ∧ run.ended = .exit 0 shown.flatten
    ∧ run.out = made.flatMap (namesAsked f) ++ (serialiseTold w o).2 ++ [savingLine f "serialized.bin".toList, dividing f line]
      ++ (objectSaid r p (some n)).out ++ shown
    ∧ run.written = fileMade world "serialized.bin".toList n

private theorem banner_eq (f : ProgFiles) (k : Nat) (line : String) (h : natStr k = line.toList) : banner f k = [dividing f line] := by
  rw [banner, dividing, h]

/-- **C105, reader-test-02**, for every number: the number is shown again. -/
theorem C105_reader02 (w : Compiled) (r : ReadCompiled) (f : ProgFiles) (world : World) (val : Int) :
    WritesAndReads ["Outer", "Inner"] (innerMembers w) (innerReads r f "Inner::deserialiseImple:".toList) f world (reader02Obj val) class02 "24"
      ["Outer:: ".toList ++ decimal val ++ "\n".toList] (readerTest02 w r f world val []) := by
  obtain ⟨n, hs, hd, -⟩ := C76_reader02 val
  have hsh : shown02 (.obj [.obj [.prim (.int val)]]) = ["Outer:: ".toList ++ decimal val ++ "\n".toList] := by
    show [javaClassName nOuter ++ ":: ".toList ++ intStr val ++ nl] = _
    rw [intStr_eq, show javaClassName nOuter = "Outer".toList by decide +kernel]
    rfl
  refine ⟨n, hs, ?_, ?_, ?_⟩ <;> rw [readerTest02, roundTrip_eq _ _ f world _ _ _ class02 shown02 hs hd]
  · simp only [hsh]
  · simp only [hsh, names_outer, names_inner, banner_eq f 24 "24" (by decide), List.flatMap_cons, List.flatMap_nil, List.append_nil, List.append_assoc,
      List.cons_append, List.nil_append]

/-- **C105, reader-test-03**, for all numbers: those behind the pointer too. -/
theorem C105_reader03 (w : Compiled) (r : ReadCompiled) (f : ProgFiles) (world : World) (a b : Int × Int) :
    WritesAndReads ["Outer", "Inner", "Inner"] (innerMembers w) (innerReads r f "Inner::deserialiseImpl:".toList) f world (reader03Obj a b)
      class03 "27" [decimal a.1 ++ " ".toList ++ decimal a.2 ++ " ".toList ++ decimal b.1 ++ " ".toList ++ decimal b.2 ++ "\n".toList]
      (readerTest03 w r f world a b []) := by
  obtain ⟨n, hs, hd, -⟩ := C76_reader03 a b
  have hsh : shown03 (.obj [.obj [.prim (.int a.1), .prim (.int a.2)], .obj [.prim (.int b.1), .prim (.int b.2)]])
      = [decimal a.1 ++ " ".toList ++ decimal a.2 ++ " ".toList ++ decimal b.1 ++ " ".toList ++ decimal b.2 ++ "\n".toList] := by
    show [intStr a.1 ++ " ".toList ++ intStr a.2 ++ " ".toList ++ intStr b.1 ++ " ".toList ++ intStr b.2 ++ nl] = _
    rw [intStr_eq, intStr_eq, intStr_eq, intStr_eq]
    rfl
  refine ⟨n, hs, ?_, ?_, ?_⟩ <;> rw [readerTest03, roundTrip_eq _ _ f world _ _ _ class03 shown03 hs hd]
  · simp only [hsh]
  · simp only [hsh, names_outer, names_inner, banner_eq f 27 "27" (by decide), List.flatMap_cons, List.flatMap_nil, List.append_nil, List.append_assoc,
      List.cons_append, List.nil_append]

/-- The six lines of reader-test-04 and 05, with a headline. -/
def sixLines (ts : List Str) : List Str := "Outer:: \n".toList :: ts.map fun t => "  ".toList ++ t ++ "\n".toList

/-- **C105, reader-test-04**, for all numbers. -/
theorem C105_reader04 (w : Compiled) (r : ReadCompiled) (f : ProgFiles) (world : World) (a b c d e g : Int) :
    WritesAndReads ["Outer", "Inner"] (innerMembers w) (innerReads r f "Inner::deserialiseImpl:".toList) f world (reader04Obj a b c d e g)
      class04 "27" (sixLines ([a, b, c, d, e, g].map decimal)) (readerTest04 w r f world a b c d e g []) := by
  obtain ⟨n, hs, hd, -⟩ := C76_reader04 a b c d e g
  have hsh : shown04 (.obj [.obj [.prim (.int a), .prim (.int b), .prim (.int c), .prim (.int d), .prim (.int e), .prim (.int g)]])
      = sixLines ([a, b, c, d, e, g].map decimal) := by
    show [javaClassName nOuter ++ ":: ".toList ++ nl, "  ".toList ++ intStr a ++ nl, "  ".toList ++ intStr b ++ nl,
      "  ".toList ++ intStr c ++ nl, "  ".toList ++ intStr d ++ nl, "  ".toList ++ intStr e ++ nl, "  ".toList ++ intStr g ++ nl] = _
    rw [intStr_eq, intStr_eq, intStr_eq, intStr_eq, intStr_eq, intStr_eq, show javaClassName nOuter = "Outer".toList by decide +kernel]
    rfl
  refine ⟨n, hs, ?_, ?_, ?_⟩ <;> rw [readerTest04, roundTrip_eq _ _ f world _ _ _ class04 shown04 hs hd]
  · simp only [hsh]
  · simp only [hsh, names_outer, names_inner, banner_eq f 27 "27" (by decide), List.flatMap_cons, List.flatMap_nil, List.append_nil, List.append_assoc,
      List.cons_append, List.nil_append]

/-- **C105, reader-test-05**, for all values: the string up to its first NUL, the `bool` as 0 or 1. -/
theorem C105_reader05 (w : Compiled) (r : ReadCompiled) (f : ProgFiles) (world : World) (a : Int) (b : Str) (c : Nat) (d : Int) (e : Bool)
    (g : Nat) :
    WritesAndReads ["Outer", "Inner"] (innerMembers w) (innerReads r f "Inner::deserialiseImpl:".toList) f world (reader05Obj a b c d e g)
      class05 "27" (sixLines [decimal a, upToNul b, r.double c, decimal d, if e then "1".toList else "0".toList, r.float g])
      (readerTest05 w r f world a b c d e g []) := by
  obtain ⟨n, hs, hd, -⟩ := C76_reader05 a b c d e g
  have hsh : shown05 r (.obj [.obj [.prim (.int a), .prim (.string (upToNul b)), .prim (.double c), .prim (.long d), .prim (.bool e),
      .prim (.float g)]]) = sixLines [decimal a, upToNul b, r.double c, decimal d, if e then "1".toList else "0".toList, r.float g] := by
    show [javaClassName nOuter ++ ":: ".toList ++ nl, "  ".toList ++ intStr a ++ nl, "  ".toList ++ upToNul b ++ nl,
      "  ".toList ++ r.double c ++ nl, "  ".toList ++ intStr d ++ nl, "  ".toList ++ (if e then "1".toList else "0".toList) ++ nl,
      "  ".toList ++ r.float g ++ nl] = _
    rw [intStr_eq, intStr_eq, show javaClassName nOuter = "Outer".toList by decide +kernel]
    rfl
  refine ⟨n, hs, ?_, ?_, ?_⟩ <;> rw [readerTest05, roundTrip_eq _ _ f world _ _ _ class05 (shown05 r) hs hd]
  · simp only [hsh]
  · simp only [hsh, names_outer, names_inner, banner_eq f 27 "27" (by decide), List.flatMap_cons, List.flatMap_nil, List.append_nil, List.append_assoc,
      List.cons_append, List.nil_append]

/-- What the classes of these programs say when they are read: the inner one how many values there were, both their names. -/
theorem C105_classes (r : ReadCompiled) (f : ProgFiles) (word : Str) (vs : List RVal) :
    (innerReads r f word).after "Inner".toList (.obj vs) = (word ++ decimalNat vs.length ++ "\n".toList) :: namesAsked f "Inner"
      ∧ (innerReads r f word).after "Outer".toList (.obj vs) = namesAsked f "Outer" ∧ ∀ n, (innerReads r f word).before n = [] := by
  refine ⟨?_, ?_, fun _ => rfl⟩
  · show (if nInner = nInner then [word ++ natStr vs.length ++ nl] else []) ++ nameTold f nInner = _
    rw [if_pos rfl, names_inner, natStr_eq]
    rfl
  · show (if nOuter = nInner then [word ++ natStr vs.length ++ nl] else []) ++ nameTold f nOuter = _
    rw [if_neg (by decide), names_outer]
    rfl

/-- **C105 is violated** by reader-test-06, for every list, also the one it is run with: it writes the file and then dies of an exception
nobody catches. -/
theorem C105_reader06_violated (w : Compiled) (r : ReadCompiled) (f : ProgFiles) (world : World) (vector : Str) (l : List Int) :
    ∃ n, serialise (reader06Obj l) = .ok [n] ∧ (readerTest06 w r f world vector l []).ended = .terminated
      ∧ (readerTest06 w r f world vector l []).written = fileMade world "serialized.bin".toList n
      ∧ (namesAsked f "DeSerialiseMe" ++ namesAsked f "int" ++ (serialiseTold { w with impl := fun _ => [] } (reader06Obj l)).2
          ++ [savingLine f "serialized.bin".toList]) <+: (readerTest06 w r f world vector l []).out := by
  obtain ⟨n, hs, hd⟩ := C76_reader06_violated l
  refine ⟨n, hs, ?_, ?_, ?_⟩ <;> rw [readerTest06, roundTrip_throw _ _ f world _ _ _ (class06 vector) _ hs hd]
  rw [names_me, names_int]
  simp only [List.append_nil]
  exact List.prefix_append _ _

/-- **C105, arguments**: none of the programs takes one; with one they do nothing and report failure. -/
theorem C105_arguments (w : Compiled) (r : ReadCompiled) (f : ProgFiles) (world : World) (made : List Str) (o : Obj) (between : List Str)
    (p : NProp) (shown : RVal → List Str) (args : List Str) (h : args ≠ []) :
    roundTripMain w r f world made o between p shown args = turnedAway := by
  cases args with
  | nil => exact absurd rfl h
  | cons _ _ => rfl

/-! ### C106: the programs that write -/

/-- **C106, what they do**: with one argument the object is serialised; if that succeeds the file is written, if it can be opened, and
success is reported. Everything printed is what is said when the object is made, when it is written (C102), and the name of the file. -/
theorem C106_run (w : Compiled) (f : ProgFiles) (world : World) (made : List Str) (o : Obj) (path : Str) (n : Node) (h : serialise o = .ok [n]) :
    writerMain w f world made o [path]
      = ⟨.exit 0 [], made ++ (serialiseTold w o).2 ++ [savingLine f path], fileMade world path n⟩ := by
  have h1 : (serialiseTold w o).1 = .ok [n] := by rw [C102_end, h]
  rw [← file_made, ← saving_line]
  unfold writerMain
  simp only
  generalize serialiseTold w o = x at h1 ⊢
  obtain ⟨y, out⟩ := x
  cases h1
  rfl

/-- **C106, when success is reported**: exactly if there is one argument and the object can be serialised. -/
theorem C106_success (w : Compiled) (f : ProgFiles) (world : World) (made : List Str) (o : Obj) (args : List Str) :
    (∃ text, (writerMain w f world made o args).ended = .exit 0 text) ↔ ∃ path n, args = [path] ∧ serialise o = .ok [n] := by
  constructor
  · rintro ⟨text, h⟩
    match args, h with
    | [path], h =>
      have h1 := C102_end w o
      unfold writerMain at h
      simp only at h
      generalize serialiseTold w o = x at h1 h
      obtain ⟨y, out⟩ := x
      match y, h1, h with
      | .ok [n], h1, h => exact ⟨path, n, rfl, h1.symm⟩
      | .ok [], _, h => cases h
      | .ok (_ :: _ :: _), _, h => cases h
      | .throw m, _, h => cases h
      | .ub m, _, h => cases h
    | [], h => cases h
    | _ :: _ :: _, h => cases h
  · rintro ⟨path, n, rfl, h⟩
    exact ⟨[], by rw [C106_run w f world made o path n h]⟩

/-- **C106, partial.** If success is reported and the file could be opened, it is there: the header, a zero, and the encoded object.  Missing:
that success is reported only if the file could be opened. -/
theorem C106_file_partial (w : Compiled) (f : ProgFiles) (world : World) (made : List Str) (o : Obj) (path text : Str)
    (h : (writerMain w f world made o [path]).ended = .exit 0 text) (hc : world.creates path = true) :
    ∃ n, serialise o = .ok [n] ∧ (writerMain w f world made o [path]).written = [(path, magic ++ 0 :: world.encode n)] := by
  obtain ⟨path', n, hp, hs⟩ := (C106_success w f world made o [path]).1 ⟨text, h⟩
  refine ⟨n, hs, ?_⟩
  rw [C106_run w f world made o path n hs]
  show fileMade world path n = _
  rw [fileMade, if_pos hc]

/-- **C106 is violated**: a file that cannot be opened makes no difference; nothing is written and success is reported, by every program for
every object that can be serialised. -/
theorem C106_violated (w : Compiled) (f : ProgFiles) (world : World) (made : List Str) (o : Obj) (path : Str) (n : Node)
    (h : serialise o = .ok [n]) (hc : world.creates path = false) :
    (writerMain w f world made o [path]).ended = .exit 0 [] ∧ (writerMain w f world made o [path]).written = []
      ∧ ∀ world' : World, world'.encode = world.encode → (writerMain w f world' made o [path]).out = (writerMain w f world made o [path]).out := by
  rw [C106_run w f world made o path n h]
  refine ⟨rfl, ?_, fun world' _ => ?_⟩
  · show fileMade world path n = _
    rw [fileMade, hc]; rfl
  · rw [C106_run w f world' made o path n h]

/-- **C106, arguments**: with any other number of arguments they do nothing and report failure. -/
theorem C106_arguments (w : Compiled) (f : ProgFiles) (world : World) (made : List Str) (o : Obj) (args : List Str) (h : args.length ≠ 1) :
    writerMain w f world made o args = turnedAway := by
  match args, h with
  | [], _ => rfl
  | [_], h => exact absurd rfl h
  | _ :: _ :: _, _ => rfl

/-- **C106, and what the inspector makes of the file**: if a program writes an object that can be shown (C75 has the sample programs), and that
is encoded as AMQP says, the file it leaves is shown by the blob inspector. -/
theorem C106_inspected (w : Compiled) (f : ProgFiles) (world : World) (made : List Str) (o : Obj) (path text : Str) (leftFirst : Bool)
    (h : SavedAndShown leftFirst o text)
    (he : ∀ n, serialise o = .ok [n] → Encodes (world.encode n) n ∧ (world.encode n).length < 2 ^ 62)
    (hc : world.creates path = true) :
    (writerMain w f world made o [path]).ended = .exit 0 [] ∧ ∃ bytes, (writerMain w f world made o [path]).written = [(path, bytes)]
      ∧ blobInspector leftFirst (holding bytes) [path] = .exit 0 (text ++ ['\n']) := by
  obtain ⟨n, hs, hi⟩ := h
  have hr := C106_run w f world made o path n hs
  refine ⟨by rw [hr], (CordaBytes.ofBlob (world.encode n)).toFile, ?_, hi _ (he n hs).1 (he n hs).2 path⟩
  rw [hr]
  show fileMade world path n = _
  rw [← file_made, Programs.saved, if_pos hc]

/-- **C104 and C106 together**: reader-test-01 on the file that writer-test-01 leaves shows the number it was made with, and that number plus
50. -/
theorem C104_writer01 (w : Compiled) (r : ReadCompiled) (f g : ProgFiles) (world : World) (made : List Str) (val : Int) (path : Str)
    (he : ∀ n, serialise (writer01 val) = .ok [n] → Encodes (world.encode n) n ∧ (world.encode n).length < 2 ^ 62)
    (hc : world.creates path = true) :
    ∃ bytes, (writerMain w f world made (writer01 val) [path]).written = [(path, bytes)]
      ∧ (readerTest01 r g (holding bytes) [path]).ended
        = .exit 0 (decimal val ++ ", ".toList ++ decimal (val + 50) ++ "\nFingerprint = DSM123\n".toList) := by
  obtain ⟨n, hs, hd, -⟩ := C76_reader01_writer01 val
  have hr := C106_run w f world made (writer01 val) path n hs
  refine ⟨magic ++ 0 :: world.encode n, ?_, ?_⟩
  · rw [hr]
    show fileMade world path n = _
    rw [fileMade, if_pos hc]
  · refine (C104_shows r g _ ?_ [path] _).2 ⟨path, n, val, val + 50, rfl, ⟨0, world.encode n, by decide, rfl, ?_⟩, ?_, ?_⟩
    · intro p b hb
      cases hb
      have := (he n hs).2
      have hm := magic_length
      simp only [List.length_append, List.length_cons]
      omega
    · have := C71_decoded (he n hs).1 []
      rw [List.append_nil] at this
      exact this
    · have h1 := (C103_any (compiled01 r g) class01 (Cursor.root n)).1
      rw [C103_end] at h1
      have h2 : (objectSaid (compiled01 r g) class01 (some n)).res = .ok (.obj [.prim (.int val), .prim (.int (val + 50))]) := by
        rw [← hd]; exact h1.symm
      obtain ⟨a, b, hab, e⟩ := (reads01 _ _ _).1 h2
      cases e
      exact hab
    · exact flat val (val + 50)

/-! ### Examples -/

private def anyWriter : Compiled where
  file _ := "f".toList
  elemType _ := .string
  elemPointer _ := false
  memberType _ := .string
  ids _ := "id".toList
  address := "0x1".toList
  null := "0".toList
  float _ := "1.5".toList
  double _ := "2.5".toList
  keyFirst := true
  impl := fun _ => []

/-- A world in which one file can be written. -/
private def anyWorld : World := { file := fun _ => none, decode := fun _ => none, encode := fun _ => [1, 2, 3], creates := fun p => p == "serialized.bin".toList }

/-- reader-test-02: all it prints but what the library says. -/
example : (readerTest02 anyWriter anyCompiler anyFiles anyWorld 100 []).ended = .exit 0 "Outer:: 100\n".toList
    ∧ (readerTest02 anyWriter anyCompiler anyFiles anyWorld 100 []).written = [("serialized.bin".toList, magic ++ [0, 1, 2, 3])]
    ∧ (readerTest02 anyWriter anyCompiler anyFiles anyWorld 100 []).out.filter (fun l => !(['[', 'f'].isPrefixOf l)) =
      ["[t::125] javaTypeName = Outer\n".toList, "[t::138] javaTypeName RTN = Outer\n".toList,
       "[t::125] javaTypeName = Inner\n".toList, "[t::138] javaTypeName RTN = Inner\n".toList,
       "[b::97] toFile - serialized.bin\n".toList, "[m::24] \n\nDESERIALISE\n\n".toList,
       "Inner::deserialiseImple:1\n".toList, "[t::125] javaTypeName = Inner\n".toList, "[t::138] javaTypeName RTN = Inner\n".toList,
       "[t::125] javaTypeName = Outer\n".toList, "[t::138] javaTypeName RTN = Outer\n".toList,
       "Outer:: 100\n".toList] := by decide +kernel

/-- writer-test-02 with a file it can write and one it cannot. -/
example : (writerMain anyWriter anyFiles anyWorld [] (writer02 1 2 3) ["serialized.bin".toList]).written
      = [("serialized.bin".toList, magic ++ [0, 1, 2, 3])]
    ∧ (writerMain anyWriter anyFiles anyWorld [] (writer02 1 2 3) ["/nowhere/x".toList]).written = []
    ∧ (writerMain anyWriter anyFiles anyWorld [] (writer02 1 2 3) ["/nowhere/x".toList]).ended = .exit 0 [] := by decide +kernel

end Corda.Props

#print axioms Corda.Props.C104_shows
#print axioms Corda.Props.C104_output
#print axioms Corda.Props.C104_two_numbers_partial
#print axioms Corda.Props.C104_class
#print axioms Corda.Props.C104_otherwise
#print axioms Corda.Props.C104_violated
#print axioms Corda.Props.C105_reader02
#print axioms Corda.Props.C105_reader03
#print axioms Corda.Props.C105_reader04
#print axioms Corda.Props.C105_reader05
#print axioms Corda.Props.C105_classes
#print axioms Corda.Props.C105_reader06_violated
#print axioms Corda.Props.C105_arguments
#print axioms Corda.Props.C106_run
#print axioms Corda.Props.C106_success
#print axioms Corda.Props.C106_file_partial
#print axioms Corda.Props.C106_violated
#print axioms Corda.Props.C106_arguments
#print axioms Corda.Props.C106_inspected
#print axioms Corda.Props.C104_writer01
