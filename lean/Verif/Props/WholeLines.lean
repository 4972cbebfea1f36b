import Verif.Lemmas.WholeLines
import Verif.Props.AnyInspect
import Verif.Props.InspectPrinted
import Verif.Props.AnyData
import Verif.Props.Printed
import Verif.Props.Tools

/-
C123: where the dump is in the output of the tools.
-/

namespace Corda.Props
open Corda Prog Spec

/-! ### All tools -/

private theorem at_the_end {o : List Str} {s : Str} (h : Whole o) : AtTheEnd s (o ++ [s ++ nl]).flatten :=
  ⟨o.flatten, h.flatten, by simp [nl]⟩

private theorem ended_inj {d s : Str} (h : Ended.exit exitSuccess (s ++ nl) = .exit 0 (d ++ ['\n'])) : d = s := by
  injection h with _ h
  exact (List.append_cancel_right (h : s ++ ['\n'] = d ++ ['\n'])).symm

private theorem failure_ne {o d : Str} (h : Ended.exit exitFailure o = .exit 0 d) : False := by
  injection h with h
  exact absurd h (by decide)

private theorem uncaught_ok {r : Res Ended} {o : Str} (h : uncaught r = .exit 0 o) : r = .ok (.exit 0 o) := by
  cases r with
  | ok e => exact congrArg Res.ok h
  | throw m => cases h
  | ub m => cases h

private theorem caught_ok {r : Res Ended} {o : Str} (h : catchRuntime r = .exit 0 o) : r = .ok (.exit 0 o) := by
  cases r with
  | ok e => exact congrArg Res.ok h
  | throw m =>
    simp only [catchRuntime] at h
    split at h
    · exact (failure_ne h).elim
    · cases h
  | ub m => cases h

private theorem load_inspect (p : Paths) (lf : Bool) (sys : System) (path : Str) : Whole (loadAndInspect p lf sys path).2 ∧
    ∀ d, (loadAndInspect p lf sys path).1 = .ok (.exit 0 (d ++ ['\n'])) → AtTheEnd d (loadAndInspect p lf sys path).2.flatten := by
  unfold loadAndInspect
  split
  · split
    · split
      · rename_i c _
        have h := whole_inspectTold p lf c
        split
        · rename_i s out e
          rw [e] at h
          refine ⟨h.append (Whole.one (ends_nl _)), fun d hd => ?_⟩
          rw [ended_inj (Res.ok.inj hd)]
          exact at_the_end h
        · rename_i e; rw [e] at h; exact ⟨h, fun d hd => by cases hd⟩
        · rename_i e; rw [e] at h; exact ⟨h, fun d hd => by cases hd⟩
      · exact ⟨Whole.nil, fun d hd => by cases hd⟩
      · exact ⟨Whole.nil, fun d hd => by cases hd⟩
    · exact ⟨Whole.nil, fun d hd => (failure_ne (Res.ok.inj hd)).elim⟩
  · exact ⟨Whole.nil, fun d hd => by cases hd⟩
  · exact ⟨Whole.nil, fun d hd => by cases hd⟩

private theorem load_print (f : Files) (sys : System) (path : Str) : Whole (loadAndPrint f sys path).2 ∧
    ∀ d, (loadAndPrint f sys path).1 = .ok (.exit 0 (d ++ ['\n'])) → AtTheEnd d (loadAndPrint f sys path).2.flatten := by
  unfold loadAndPrint
  split
  · split
    · split
      · rename_i c _
        have h := (whole_dumpData f).«at» c
        split
        · rename_i s c' out e
          rw [e] at h
          refine ⟨h.append (Whole.one (ends_nl _)), fun d hd => ?_⟩
          rw [ended_inj (Res.ok.inj hd)]
          exact at_the_end h
        · rename_i e; rw [e] at h; exact ⟨h, fun d hd => by cases hd⟩
        · rename_i e; rw [e] at h; exact ⟨h, fun d hd => by cases hd⟩
      · exact ⟨Whole.nil, fun d hd => by cases hd⟩
      · exact ⟨Whole.nil, fun d hd => by cases hd⟩
    · exact ⟨Whole.nil, fun d hd => (failure_ne (Res.ok.inj hd)).elim⟩
  · exact ⟨Whole.nil, fun d hd => by cases hd⟩
  · exact ⟨Whole.nil, fun d hd => by cases hd⟩

private theorem load_tell (f : SchemaFiles) (t : DumpTarget) (sys : System) (path : Str) : Whole (loadAndTell f t sys path).2 ∧
    ∀ d, (loadAndTell f t sys path).1 = .ok (.exit 0 (d ++ ['\n'])) → AtTheEnd d (loadAndTell f t sys path).2.flatten := by
  unfold loadAndTell
  split
  · split
    · split
      · rename_i c _
        have h := (whole_dumpSchema f t).«at» c
        split
        · rename_i s c' out e
          rw [e] at h
          refine ⟨h.append (Whole.one (ends_nl _)), fun d hd => ?_⟩
          rw [ended_inj (Res.ok.inj hd)]
          exact at_the_end h
        · rename_i e; rw [e] at h; exact ⟨h, fun d hd => by cases hd⟩
        · rename_i e; rw [e] at h; exact ⟨h, fun d hd => by cases hd⟩
      · exact ⟨Whole.nil, fun d hd => by cases hd⟩
      · exact ⟨Whole.nil, fun d hd => by cases hd⟩
    · exact ⟨Whole.nil, fun d hd => (failure_ne (Res.ok.inj hd)).elim⟩
  · exact ⟨Whole.nil, fun d hd => by cases hd⟩
  · exact ⟨Whole.nil, fun d hd => by cases hd⟩

/-- **C123, the blob inspector.** Whatever the file: every piece of the output ends in a line end, and the dump begins where a line begins and is
the last of the output. -/
theorem C123_blob_inspector (p : Paths) (leftFirst : Bool) (sys : System) (args : List Str) :
    (∀ s ∈ (blobInspectorOutput p leftFirst sys args).2, EndsLine s) ∧
      ∀ d, (blobInspectorOutput p leftFirst sys args).1 = .exit 0 (d ++ ['\n']) → AtTheEnd d (blobInspectorOutput p leftFirst sys args).2.flatten := by
  unfold blobInspectorOutput
  split
  · split
    · exact ⟨Whole.nil, fun d hd => (failure_ne hd).elim⟩
    · exact ⟨(load_inspect p leftFirst sys _).1, fun d hd => (load_inspect p leftFirst sys _).2 d (uncaught_ok hd)⟩
  · exact ⟨Whole.nil, fun d hd => (failure_ne hd).elim⟩

/-- **C123, the data dumper.** Likewise. -/
theorem C123_data_dumper (f : Files) (sys : System) (args : List Str) :
    (∀ s ∈ (dataDumperOutput f sys args).2, EndsLine s) ∧
      ∀ d, (dataDumperOutput f sys args).1 = .exit 0 (d ++ ['\n']) → AtTheEnd d (dataDumperOutput f sys args).2.flatten := by
  unfold dataDumperOutput
  split
  · split
    · exact ⟨Whole.nil, fun d hd => (failure_ne hd).elim⟩
    · exact ⟨(load_print f sys _).1, fun d hd => (load_print f sys _).2 d (caught_ok hd)⟩
  · exact ⟨Whole.nil, fun d hd => (failure_ne hd).elim⟩

/-- **C123, the schema dumper.** Likewise. -/
theorem C123_schema_dumper (f : SchemaFiles) (sys : System) (args : List Str) :
    (∀ s ∈ (schemaDumperOutput f sys args).2, EndsLine s) ∧
      ∀ d, (schemaDumperOutput f sys args).1 = .exit 0 (d ++ ['\n']) → AtTheEnd d (schemaDumperOutput f sys args).2.flatten := by
  unfold schemaDumperOutput
  split
  · split
    · exact ⟨Whole.nil, fun d hd => (failure_ne hd).elim⟩
    · split
      · exact ⟨(load_tell f _ sys _).1, fun d hd => (load_tell f _ sys _).2 d (caught_ok hd)⟩
      · split
        · exact ⟨(load_tell f _ sys _).1, fun d hd => (load_tell f _ sys _).2 d (caught_ok hd)⟩
        · exact ⟨Whole.nil, fun d hd => (failure_ne hd).elim⟩
  · exact ⟨Whole.nil, fun d hd => (failure_ne hd).elim⟩

/-! ### The last line -/

private theorem inspection_one (lf : Bool) (n : Node) (h : NoLineEnds n) (s : Str) (e : inspectionOf lf n = .ok s) : OneLine s := by
  unfold inspectionOf at e
  obtain ⟨⟨sc, d⟩, he, e⟩ := Res.bind_eq_ok.mp e
  obtain ⟨T, hT, e⟩ := Res.bind_eq_ok.mp e
  split at e
  · cases e
  · obtain ⟨q, hq, e⟩ := Res.bind_eq_ok.mp e
    obtain ⟨t, ht, e⟩ := Res.bind_eq_ok.mp e
    cases e
    refine one_append (one_append (by unfold OneLine; decide) ?_) (by unfold OneLine; decide)
    refine one_textIn lf (envelopeFrom_plain h he) T _ _ _ _ _ ?_ ht
    have hn : Unbroken (some n) := fun m hm => by cases hm; exact h
    unfold payloadIn at hq
    obtain ⟨ps, hps, hq⟩ := Res.bind_eq_ok.mp hq
    split at hq
    · cases hq
      exact plain_nth (plain_list (plain_nth hn.kids 1) hps) 0
    · cases hq

/-- **C123, the last line.** If no text and no symbol in the blob has a line end, the dump is the last line of the output of the blob
inspector. -/
theorem C123_last_line_partial (p : Paths) (leftFirst : Bool) (sys : System) (hs : FilesFit sys) (path : Str) (n : Node)
    (h : HoldsBlobAnyHeader sys path n) (hn : NoLineEnds n) (d : Str) (hd : blobInspector leftFirst sys [path] = .exit 0 (d ++ ['\n'])) :
    IsLastLine d (blobInspectorOutput p leftFirst sys [path]).2.flatten := by
  refine ⟨?_, (C123_blob_inspector p leftFirst sys [path]).2 d ((blobInspectorOutput_fst p leftFirst sys [path]).trans hd)⟩
  obtain ⟨hdr, payload, hh, hf, hdec⟩ := h
  have hw := C92_tool leftFirst sys path hdr payload n hh hf (hs _ _ hf) hdec
  rw [hd] at hw
  cases e : inspectionOf leftFirst n with
  | ok s =>
    rw [e] at hw
    have : d = s := ended_inj hw.symm
    exact this ▸ inspection_one leftFirst n hn s e
  | throw m => rw [e] at hw; cases hw
  | ub m => rw [e] at hw; cases hw

/-- **C123, the last line of the data dumper.** Likewise. -/
theorem C123_data_last_line_partial (f : Files) (sys : System) (hs : FilesFit sys) (path : Str) (n : Node) (h : HoldsBlob sys path n)
    (hn : NoLineEnds n) (d : Str) (hd : dataDumper sys [path] = .exit 0 (d ++ ['\n'])) :
    IsLastLine d (dataDumperOutput f sys [path]).2.flatten := by
  refine ⟨?_, (C123_data_dumper f sys [path]).2 d ((C97_end f sys [path]).trans hd)⟩
  obtain ⟨path', n', s, hp, h', e, hds⟩ := (C68_data_dumper sys hs [path] _).mp hd
  cases hp
  have : d = s := List.append_cancel_right hds
  subst this
  have : n = n' := by
    obtain ⟨b, hb, hdec⟩ := h
    obtain ⟨b', hb', hdec'⟩ := h'
    rw [hb] at hb'
    have : b = b' := (List.cons.inj (List.append_cancel_left (Option.some.inj hb'))).2
    subst this
    rw [hdec] at hdec'
    exact (Prod.mk.inj (Option.some.inj hdec')).2
  subst this
  rw [C85_data] at e
  exact one_dataText (fun m hm => by cases hm; exact hn) e

/-- What is behind the last line end of the dump is the last line. -/
theorem last_line_of (p : Paths) (leftFirst : Bool) (sys : System) (args : List Str) (a b : Str) (hb : OneLine b)
    (hd : blobInspector leftFirst sys args = .exit 0 (a ++ ['\n'] ++ b ++ ['\n'])) :
    IsLastLine b (blobInspectorOutput p leftFirst sys args).2.flatten := by
  obtain ⟨before, _, e⟩ := (C123_blob_inspector p leftFirst sys args).2 _ ((blobInspectorOutput_fst p leftFirst sys args).trans hd)
  exact ⟨hb, before ++ a ++ ['\n'], .inr ⟨_, rfl⟩, by rw [e]; simp⟩

private def here : Paths := fun _ => "f".toList

/-- A class `A` with a string. -/
private def aD : TypeDesc := .comp "A".toList [] [] "fpA".toList [⟨"s".toList, "string".toList, [], [], [], true, false⟩]

private def aNode (s : String) : Node :=
  envelopeTree (valTree (.obj "fpA".toList ["s".toList] [.str s.toList])) (schemaTree [aD.tree]) (.mk .null [])

private def aSystem (s : String) : System := oneFile (magic ++ [0, 1, 2]) 2 (aNode s)

/-- **C123, a last line that is made up.** A text in the blob can have a line end. Then the last line is not the dump, and it can be the dump of
another blob. -/
theorem C123_last_line_violated :
    blobInspector true (aSystem "x\" } }\n{ Parsed : { s : \"y") ["f".toList] =
        .exit 0 "{ Parsed : { s : \"x\" } }\n{ Parsed : { s : \"y\" } }\n".toList
      ∧ IsLastLine "{ Parsed : { s : \"y\" } }".toList
          (blobInspectorOutput here true (aSystem "x\" } }\n{ Parsed : { s : \"y") ["f".toList]).2.flatten
      ∧ IsLastLine "{ Parsed : { s : \"y\" } }".toList (blobInspectorOutput here true (aSystem "y") ["f".toList]).2.flatten := by
  have h1 : blobInspector true (aSystem "x\" } }\n{ Parsed : { s : \"y") ["f".toList] =
      .exit 0 ("{ Parsed : { s : \"x\" } }".toList ++ ['\n'] ++ "{ Parsed : { s : \"y\" } }".toList ++ ['\n']) := by decide +kernel
  have h2 : blobInspector true (aSystem "y") ["f".toList] = .exit 0 ("{ Parsed : { s : \"y\" } }".toList ++ ['\n']) := by decide +kernel
  have ho : OneLine "{ Parsed : { s : \"y\" } }".toList := by unfold OneLine; decide +kernel
  refine ⟨by decide +kernel, last_line_of here true _ _ _ _ ho h1, ho, ?_⟩
  exact (C123_blob_inspector here true _ _).2 _ ((blobInspectorOutput_fst here true _ _).trans h2)

/-- **C123, a last line that is made up, the data dumper.** Likewise. -/
theorem C123_data_last_line_violated (f : Files) :
    dataDumper (aSystem "x ]\nfpA : [ y") ["f".toList] = .exit 0 "fpA : [ x ]\nfpA : [ y ]\n".toList
      ∧ IsLastLine "fpA : [ y ]".toList (dataDumperOutput f (aSystem "x ]\nfpA : [ y") ["f".toList]).2.flatten
      ∧ IsLastLine "fpA : [ y ]".toList (dataDumperOutput f (aSystem "y") ["f".toList]).2.flatten := by
  have h1 : dataDumper (aSystem "x ]\nfpA : [ y") ["f".toList] =
      .exit 0 (("fpA : [ x ]".toList ++ ['\n'] ++ "fpA : [ y ]".toList) ++ ['\n']) := by decide +kernel
  have h2 : dataDumper (aSystem "y") ["f".toList] = .exit 0 ("fpA : [ y ]".toList ++ ['\n']) := by decide +kernel
  have ho : OneLine "fpA : [ y ]".toList := by unfold OneLine; decide +kernel
  refine ⟨by decide +kernel, ⟨ho, ?_⟩, ho, (C123_data_dumper f _ _).2 _ ((C97_end f _ _).trans h2)⟩
  obtain ⟨before, _, e⟩ := (C123_data_dumper f _ _).2 _ ((C97_end f _ _).trans h1)
  exact ⟨before ++ "fpA : [ x ]".toList ++ ['\n'], .inr ⟨_, rfl⟩, by rw [e]; simp only [List.append_assoc]⟩

/-! ### Examples -/

private theorem a_fits (s : String) : FilesFit (aSystem s) := by
  intro _ b hb
  have e : b = magic ++ [0, 1, 2] := (Option.some.inj hb).symm
  have : b.length = 10 := by rw [e]; rfl
  omega

private theorem a_holds (s : String) : HoldsBlobAnyHeader (aSystem s) "f".toList (aNode s) := ⟨magic, [1, 2], rfl, rfl, rfl⟩

private def ownText : Atom → List Str
  | .string s => [s]
  | .symbol s => [s]
  | _ => []

/-- The texts and symbols in a tree. -/
private def textsIn : Node → List Str
  | .mk a ks => ownText a ++ textsInAll ks
where
  textsInAll : List Node → List Str
    | [] => []
    | k :: ks => textsIn k ++ textsInAll ks

private theorem textsInAll_mem {k : Node} {s : Str} (hs : s ∈ textsIn k) : ∀ {ks : List Node}, k ∈ ks → s ∈ textsIn.textsInAll ks
  | [], h => by cases h
  | k' :: ks, h => by
    rw [textsIn.textsInAll]
    rcases List.mem_cons.mp h with rfl | h
    · exact List.mem_append_left _ hs
    · exact List.mem_append_right _ (textsInAll_mem hs h)

private theorem plain_of {n : Node} (h : ∀ s ∈ textsIn n, OneLine s) : NoLineEnds n := by
  intro m s hm hs
  refine h s ?_
  clear h
  induction hm with
  | here =>
    obtain ⟨a, ks⟩ := m
    rw [textsIn]
    refine List.mem_append_left _ ?_
    rcases hs with hs | hs <;> simp only [Node.val] at hs <;> subst hs <;> exact List.mem_cons_self
  | deeper a ks k hk _ ih =>
    rw [textsIn]
    exact List.mem_append_right _ (textsInAll_mem ih hk)

/-- An ordinary text. -/
example : IsLastLine "{ Parsed : { s : \"y\" } }".toList (blobInspectorOutput here true (aSystem "y") ["f".toList]).2.flatten :=
  C123_last_line_partial here true _ (a_fits "y") _ _ (a_holds "y") (plain_of (by unfold OneLine; decide +kernel)) _ (by decide +kernel)

/-- The same blob in the data dumper. -/
example (f : Files) : IsLastLine "fpA : [ y ]".toList (dataDumperOutput f (aSystem "y") ["f".toList]).2.flatten :=
  C123_data_last_line_partial f _ (a_fits "y") _ (aNode "y") ⟨[1, 2], rfl, rfl⟩ (plain_of (by unfold OneLine; decide +kernel)) _
    (by decide +kernel)

/-- There is something in front of it: more than ten pieces. -/
example : 10 < (blobInspectorOutput here true (aSystem "y") ["f".toList]).2.length := by decide +kernel

#print axioms C123_blob_inspector
#print axioms C123_data_dumper
#print axioms C123_schema_dumper
#print axioms C123_last_line_partial
#print axioms C123_data_last_line_partial
#print axioms C123_last_line_violated
#print axioms C123_data_last_line_violated

end Corda.Props
