import Verif.Lemmas.InspectSaid
import Verif.Lemmas.InspectFuel
import Verif.Props.InspectPrinted

/-
C101: what the blob inspector says about a value before it shows it.
-/

namespace Corda.Props
open Corda Prog Spec

/-- Said before the value itself. -/
def listRemark (p : Paths) : Str := remark (p .wrapper) "299".toList "YEP! it's a list".toList

private theorem out_dumpPayload {p : Paths} {cu : Customs} {lf : Bool} {F : Factory} {s : Schema} {i : Nat} {v : PVal} {st tr : Node}
    {c : Cursor} {out : List Str} (hc : c.cur = some (envelopeTree (valTree v) st tr))
    (h : TProg.Utters (TProg.dump p cu lf F s (c.fuel + 1) i (some parsedName)) (valTree v) out) :
    (TProg.dumpPayload p cu lf F s i c).2 = listRemark p :: out := by
  obtain ⟨w, hw⟩ := h
  revert hw
  unfold TProg.dumpPayload
  generalize c.fuel + 1 = k
  intro hw
  obtain ⟨pr, cu', re, up⟩ := c
  simp only at hc
  subst hc
  have hl : ∀ x : Cursor, x.cur = some (.mk .list [valTree v, st, tr]) → Prog.attestList x = (.ok (), x) := by
    intro x hx
    exact attest_ok (by rw [type_of_cur hx]; rfl)
  have hcl : ∀ x : Cursor, x.cur = some (.mk .list [valTree v, st, tr]) → TProg.checkList p x = ((.ok (), x), [listRemark p]) := by
    intro x hx
    have e1 : (TProg.checkList p x).1 = (.ok (), x) := by
      have := congrFun (TProg.erase_checkList p) x
      exact this.trans (hl x hx)
    have e2 : (TProg.checkList p x).2 = [listRemark p] := by
      unfold TProg.checkList
      rw [TProg.out_quiet (hl x hx)]
      unfold listRemark
      rw [← show natStr 299 = "299".toList by decide]
      rfl
    exact Prod.ext e1 e2
  have key : ∀ x : Cursor, x.cur = some (.mk .list [valTree v, st, tr]) → ((do
      TProg.checkList p
      let n ← TProg.quiet (Prog.look Cursor.getList)
      if n = 3 then
        TProg.autoEnter (do
          let v ← TProg.dump p cu lf F s k i (some Prog.parsedName)
          pure (v.dump ++ mapClose))
      else TProg.quiet (Prog.ub "assert") : TProg Str) x).2 = listRemark p :: out := by
    intro x hx
    obtain ⟨pr, cu, re, up⟩ := x
    simp only at hx
    subst hx
    rw [TProg.out_bind (congrArg Prod.fst (hcl _ rfl)), hcl _ rfl,
      TProg.out_quiet (show Prog.look Cursor.getList _ = (.ok 3, _) from rfl), if_pos rfl]
    have : ∀ q : TProg Str, (TProg.autoEnter q false ⟨pr, some (.mk .list [valTree v, st, tr]), re, up⟩).2
        = (q ⟨[], some (valTree v), [st, tr], (pr, .list, re) :: up⟩).2 := fun _ => rfl
    rw [this, TProg.out_map, hw _ rfl]
    rfl
  exact key ⟨[.mk (.ulong (cordaId 1)) []], some (.mk .list [valTree v, st, tr]), [], (pr, .described, re) :: up⟩ rfl

private theorem contents_said {p : Paths} {names : Nat → Str} {cu : Customs} {lf : Bool} {F : Factory} {K : List Str}
    {before : List TypeNotation} {cs : List Str}
    (hI : Inv F K before cs []) {ls : List (List TypeNotation)} {d t : Str} {v : PVal} {st tr : Node} {c : Cursor}
    (hc : c.cur = some (envelopeTree (valTree v) st tr)) (hr : readEnvelope c = (.ok (Schema.make ls, d), c))
    (hp : ∀ t ∈ ls.flatten, PlainType t) (ho : Ordered K ls.flatten)
    (hn : ∀ t ∈ ls.flatten.reverse ++ before, t.name ∉ readable ∧ t.name ∉ cs) (hcs : ∀ k ∈ readable, k ∉ cs)
    (hu : SameNames (ls.flatten.reverse ++ before)) (hd : SameDescriptors ls.flatten)
    (hm : ∀ r k v, .restr r ∈ ls.flatten → r.kind = .map k v → lf = true) (hT : Typed ls.flatten t v)
    (hv : descriptorOf v = some d) :
    (TProg.dumpContents p names cu lf F c).2 = (TProg.readEnvelope p c).2 ++ (TFProg.process p names lf (Schema.make ls) F).2
      ++ (listRemark p :: remarks (voices p) (some parsedName) v) := by
  rcases run_all lf ls.flatten hp hI with ⟨_, F', h1, h2, h3, h4, h5, h6⟩ | ⟨h1, -⟩
  · have hready := Inv.ready h3 hn hcs hu ls.flatten (fun t ht =>
      ⟨List.mem_append_left _ (List.mem_reverse.mpr ht),
        List.mem_append_left _ (List.mem_reverse.mpr (List.mem_map_of_mem ht))⟩)
    obtain ⟨u, hu1, hu2, hu3⟩ := typed_descriptor hT hv
    rcases h6 d with ⟨t', hm', hd', i, hi, hl⟩ | ⟨hno, -⟩
    · have : t' = u := hd t' hm' u hu1 (hd'.trans hu3.symm)
      subst this
      rw [hu2] at hi
      have hsh := TProg.dump_utters (p := p) (cu := cu) (lf := lf) hready (fromDescriptor_of_same hd) hm hT i (c.fuel + 1) (some parsedName) hi (by
        unfold Cursor.fuel
        rw [hc]
        have := height_kids (v := .list) (ks := [valTree v, st, tr]) (k := valTree v) (by simp)
        have := height_kids (v := .described) (ks := [.mk (.ulong (cordaId 1)) [], .mk .list [valTree v, st, tr]])
          (k := .mk .list [valTree v, st, tr]) (by simp)
        simp only [envelopeTree, element]
        omega)
      have hproc : (TFProg.process p names lf (Schema.make ls) F).1 = (.ok (), F') := by
        rw [TFProg.erase_process]
        unfold FProg.process; rw [schema_make_types]; exact h1
      have hre : (TProg.readEnvelope p c).1 = (.ok (Schema.make ls, d), c) := by
        rw [TProg.erase_readEnvelope, hr]
      have ho := out_dumpPayload hc hsh
      unfold TProg.dumpContents
      revert hre hproc
      rcases TProg.readEnvelope p c with ⟨x, o1⟩
      intro hproc hre
      simp only at hre
      subst hre
      simp only
      revert hproc
      rcases TFProg.process p names lf (Schema.make ls) F with ⟨y, o2⟩
      intro hproc
      simp only at hproc
      subst hproc
      simp only [Factory.findDesc, hl, Option.join]
      simp only [Option.bind_some, id]
      rw [ho]
    · exact absurd hu3 (hno u hu1)
  · exact absurd ho h1

/-- **C101.** Take a schema as in C57. There are lines, the same for all values of its types, that come first; then, when a blob with a value is
inspected, the remarks about that value, and at last the value. -/
theorem C101_said (p : Paths) (leftFirst : Bool) (ds : List TypeDesc) (ts : List TypeNotation)
    (hm : ds.map TypeDesc.make = ts.map Res.ok) (hs : Sound leftFirst ts) (ls : List (List TypeNotation))
    (hl : insertAllR TypeNotation.dependsOn ts = .ok ls) (ho : Ordered [publicKeyType] ls.flatten) :
    ∃ before : List Str, ∀ (t : Str) (v : PVal), Typed ts t v → ∀ d, descriptorOf v = some d → ∀ n : Node,
      envelopeProton [valTree v] (schemaProton (ds.map TypeDesc.proton)) = [n] → ∀ (sys : System), FilesFit sys → ∀ path : Str,
      HoldsBlobAnyHeader sys path n →
      (blobInspectorOutput p leftFirst sys [path]).2
        = before ++ (listRemark p :: remarks (voices p) (some "{ Parsed".toList) v) ++ [parsedText v ++ "\n".toList] := by
  have hproton : ds.map TypeDesc.proton = (ds.map TypeDesc.tree).map fun n => [n] := by
    rw [List.map_map]
    exact List.map_congr_left fun d _ => TypeDesc.proton_eq d
  have hperm := (C11_schema_types ts ls hl).1
  have hsub : ∀ t ∈ ls.flatten, t ∈ ts := fun t ht => hperm.mem_iff.mp ht
  have hs' := hs.of_subset hsub
  -- the tree of the schema
  obtain ⟨st, tr, hst⟩ : ∃ st tr, ∀ b : Node, envelopeProton [b] (schemaProton (ds.map TypeDesc.proton)) = [envelopeTree b st tr] := by
    refine ⟨schemaTree (ds.map TypeDesc.tree), .mk .null [], fun b => ?_⟩
    rw [hproton, schemaProton_eq, envelopeProton_eq]
  let first (k : Nat) : List Str := installSaid (p .factory) :: (([traceLine (p .envelopeDescriptor) 106 "ENVELOPE".toList]
    ++ (TProg.dispatch p k (Cursor.root st)).2)
    ++ (TFProg.process p (fun _ => publicKeyName) leftFirst (Schema.make ls) (Factory.empty.installCustom 0 publicKeyType)).2)
  -- what is said with enough fuel
  have hrun : ∀ (t : Str) (v : PVal), Typed ts t v → ∀ d, descriptorOf v = some d → ∀ c : Cursor, c.cur = some (envelopeTree (valTree v) st tr) →
      (inspectTold p leftFirst c).2 = first c.fuel ++ (listRemark p :: remarks (voices p) (some parsedName) v)
        ∧ ∃ e, (TProg.dispatch p c.fuel (Cursor.root st)).1.1 = .ok e := by
    intro t v hT d hv c hc
    have hw := hst (valTree v)
    have hr : readEnvelope c = (.ok (Schema.make ls, d), c) := by
      obtain ⟨a, ks, hb⟩ := described_payload hv
      rw [hb] at hw hc
      have := C22_envelope_round_trip ds ts d [.mk a ks] hm c _ hw hc
      rw [this, hl]
      rfl
    have hout : outerOf (valTree v) = .ok d := by
      obtain ⟨a, ks, hb⟩ := described_payload hv
      rw [hb]
      rfl
    have hI := sane_inv (sane_install sane_empty 0 publicKeyType)
    rw [names_inspector] at hI
    have hsaid := contents_said (p := p) (names := fun _ => publicKeyName) (cu := fun _ _ => publicKeyDump) hI hc hr hs'.plain ho
      (by
        intro t ht
        rw [List.append_nil] at ht
        have ht := List.mem_reverse.mp ht
        exact ⟨(hs'.plain t ht).1, by simpa using hs'.notCustom t ht⟩)
      (by
        intro k hk
        rw [List.mem_singleton]
        rintro rfl
        exact publicKey_not_readable hk)
      (by
        intro t ht u hu
        simp only [List.append_nil, List.mem_reverse] at ht hu
        exact hs'.names t ht u hu)
      hs'.descriptors hs'.maps (typed_of_subset (fun t ht => hperm.mem_iff.mpr ht) hT) hv
    have hvia := TProg.via_readEnvelope p hc hout
    refine ⟨?_, hvia.2 (Schema.make ls, d) (by rw [TProg.erase_readEnvelope, hr])⟩
    unfold inspectTold
    simp only
    rw [hsaid, hvia.1]
    have hi : installLine p = installSaid (p .factory) := by
      unfold installLine traceLine installSaid
      rw [show natStr 364 = "364".toList by decide]
      simp only [List.append_assoc]; rfl
    rw [hi]
    rfl
  by_cases hex : ∃ k e, (TProg.dispatch p k (Cursor.root st)).1.1 = .ok e
  · obtain ⟨k, e, hk⟩ := hex
    refine ⟨first k, ?_⟩
    intro t v hT d hv n hw sys hf path hh
    have hn : n = envelopeTree (valTree v) st tr := by
      rw [hst] at hw
      simpa using hw.symm
    have hc : (Cursor.root n).cur = some (envelopeTree (valTree v) st tr) := by rw [hn]; rfl
    obtain ⟨h1, e', h2⟩ := hrun t v hT d hv _ hc
    have hfirst : first (Cursor.root n).fuel = first k := by
      simp only [first]
      rw [TProg.dispatch_either p h2 hk]
    have hi := C57_inspect leftFirst ds ts hm hs ls hl ho t v hT d hv n hw (Cursor.root n) rfl
    rw [C100_output p leftFirst sys hf path n hh, h1, hfirst, hi]
    rfl
  · refine ⟨[], ?_⟩
    intro t v hT d hv n hw sys hf path hh
    have hn : n = envelopeTree (valTree v) st tr := by
      rw [hst] at hw
      simpa using hw.symm
    have hc : (Cursor.root n).cur = some (envelopeTree (valTree v) st tr) := by rw [hn]; rfl
    obtain ⟨-, e', h2⟩ := hrun t v hT d hv _ hc
    exact absurd ⟨_, e', h2⟩ hex

/-! ### What the remarks tell -/

private theorem int_remark (s : Voices) (n : Int) (f : Str) : [intSaid s.int (decimal n)].Sublist (intRemarks s n (some f)) := by
  have e : remark s.int "43".toList ("    -> ".toList ++ decimal n) = intSaid s.int (decimal n) := by
    unfold remark intSaid
    simp only [List.append_assoc]; rfl
  rw [← e]
  exact ((List.Sublist.refl _).trans (List.sublist_cons_self _ _)).trans (List.sublist_cons_self _ _)

mutual

private theorem ints_told (s : Voices) (name : Option Str) : ∀ v : PVal,
    ((fieldInts v).map fun n => intSaid s.int (decimal n)).Sublist (remarks s name v)
  | .obj d ns vs => by
    rw [fieldInts, remarks]
    exact (ints_named s ns vs).trans (List.sublist_append_right _ _)
  | .list d es => by
    rw [fieldInts, remarks]
    exact (ints_all s es).trans (List.sublist_cons_self _ _)
  | .map d es => by
    rw [fieldInts, remarks]
    exact (ints_entries s es).trans (((List.sublist_cons_self _ _).trans (List.sublist_cons_self _ _)).trans (List.sublist_cons_self _ _))
  | .int n => by rw [fieldInts]; exact List.nil_sublist _
  | .long n => by rw [fieldInts]; exact List.nil_sublist _
  | .double n => by rw [fieldInts]; exact List.nil_sublist _
  | .bool n => by rw [fieldInts]; exact List.nil_sublist _
  | .str n => by rw [fieldInts]; exact List.nil_sublist _
  | .bin n => by rw [fieldInts]; exact List.nil_sublist _
  | .null => by rw [fieldInts]; exact List.nil_sublist _
  | .enum a b c => by rw [fieldInts]; exact List.nil_sublist _

private theorem ints_named (s : Voices) : ∀ (ns : List Str) (vs : List PVal),
    ((fieldIntsNamed ns vs).map fun n => intSaid s.int (decimal n)).Sublist (remarksNamed s ns vs)
  | n :: ns, v :: vs => by
    rw [fieldIntsNamed, remarksNamed, List.map_append]
    refine List.Sublist.trans (List.Sublist.append ?_ (ints_named s ns vs)) (List.sublist_cons_self _ _)
    have h := ints_told s (some n) v
    cases v with
    | int k =>
      rw [fieldInts, intItself, remarks]
      exact int_remark s k n
    | _ => exact h
  | [], _ => by rw [fieldIntsNamed]; exact List.nil_sublist _; intros; contradiction
  | _ :: _, [] => by rw [fieldIntsNamed]; exact List.nil_sublist _; intros; contradiction

private theorem ints_all (s : Voices) : ∀ vs : List PVal,
    ((fieldIntsAll vs).map fun n => intSaid s.int (decimal n)).Sublist (remarksAll s vs)
  | [] => by rw [fieldIntsAll]; exact List.nil_sublist _
  | v :: vs => by
    rw [fieldIntsAll, remarksAll, List.map_append]
    exact List.Sublist.append (ints_told s none v) (ints_all s vs)

private theorem ints_entries (s : Voices) : ∀ es : List PEntry,
    ((fieldIntsEntries es).map fun n => intSaid s.int (decimal n)).Sublist (remarksEntries s es)
  | [] => by rw [fieldIntsEntries]; exact List.nil_sublist _
  | .mk k v :: es => by
    rw [fieldIntsEntries, remarksEntries, List.map_append, List.map_append]
    exact List.Sublist.append (List.Sublist.append (ints_told s none k) (ints_told s none v)) (ints_entries s es)

end

/-- **C101, ints.** Every int in a field of an object, however deep, is printed before the dump, in the order of the fields. -/
theorem C101_ints (p : Paths) (leftFirst : Bool) (ds : List TypeDesc) (ts : List TypeNotation)
    (hm : ds.map TypeDesc.make = ts.map Res.ok) (hs : Sound leftFirst ts) (ls : List (List TypeNotation))
    (hl : insertAllR TypeNotation.dependsOn ts = .ok ls) (ho : Ordered [publicKeyType] ls.flatten)
    (t : Str) (v : PVal) (hT : Typed ts t v) (d : Str) (hv : descriptorOf v = some d) (n : Node)
    (hw : envelopeProton [valTree v] (schemaProton (ds.map TypeDesc.proton)) = [n]) (sys : System) (hf : FilesFit sys) (path : Str)
    (hh : HoldsBlobAnyHeader sys path n) :
    ((fieldInts v).map fun k => intSaid (p .intReader) (decimal k)).Sublist (blobInspectorOutput p leftFirst sys [path]).2.dropLast := by
  obtain ⟨before, h⟩ := C101_said p leftFirst ds ts hm hs ls hl ho
  rw [h t v hT d hv n hw sys hf path hh, List.dropLast_concat]
  exact ((ints_told (voices p) _ v).trans (List.sublist_cons_self _ _)).trans (List.sublist_append_right _ _)

mutual

private theorem remarks_veil (s : Voices) (name : Option Str) : ∀ v : PVal, remarks s name (veil name.isSome v) = remarks s name v
  | .obj d ns vs => by rw [veil, remarks, remarks, named_veil s ns vs]
  | .list d es => by rw [veil, remarks, remarks, all_veil s es]
  | .map d es => by rw [veil, remarks, remarks, entries_veil s es, entries_length es]
  | .int n => by
    rw [veil, remarks, remarks]
    cases name <;> rfl
  | .long n => by rw [veil, remarks, remarks]
  | .double n => by rw [veil, remarks, remarks]
  | .bool n => by rw [veil, remarks, remarks]
  | .str n => by rw [veil, remarks, remarks]
  | .bin n => by rw [veil, remarks, remarks]
  | .null => by rw [veil]
  | .enum a b c => by rw [veil, remarks, remarks]

private theorem named_veil (s : Voices) : ∀ (ns : List Str) (vs : List PVal), remarksNamed s ns (veilAll true vs) = remarksNamed s ns vs
  | n :: ns, v :: vs => by
    have := remarks_veil s (some n) v
    rw [Option.isSome_some] at this
    rw [veilAll, remarksNamed, remarksNamed, this, named_veil s ns vs]
  | [], vs => by cases vs <;> simp [remarksNamed, veilAll]
  | _ :: _, [] => by rw [veilAll]

private theorem all_veil (s : Voices) : ∀ vs : List PVal, remarksAll s (veilAll false vs) = remarksAll s vs
  | [] => by rw [veilAll]
  | v :: vs => by
    have := remarks_veil s none v
    rw [Option.isSome_none] at this
    rw [veilAll, remarksAll, remarksAll, this, all_veil s vs]

private theorem entries_veil (s : Voices) : ∀ es : List PEntry, remarksEntries s (veilEntries es) = remarksEntries s es
  | [] => by rw [veilEntries]
  | .mk k v :: es => by
    have hk := remarks_veil s none k
    have hv := remarks_veil s none v
    rw [Option.isSome_none] at hk hv
    rw [veilEntries, remarksEntries, remarksEntries, hk, hv, entries_veil s es]

private theorem entries_length : ∀ es : List PEntry, (veilEntries es).length = es.length
  | [] => by rw [veilEntries]
  | .mk k v :: es => by rw [veilEntries, List.length_cons, List.length_cons, entries_length es]

end

/-- **C101, the rest.** Two values of the schema that differ in texts, longs, doubles, truth values, binaries, constants of enumerations and ints
outside of fields only make the inspector print the same before the dump. -/
theorem C101_hidden (p : Paths) (leftFirst : Bool) (ds : List TypeDesc) (ts : List TypeNotation)
    (hm : ds.map TypeDesc.make = ts.map Res.ok) (hs : Sound leftFirst ts) (ls : List (List TypeNotation))
    (hl : insertAllR TypeNotation.dependsOn ts = .ok ls) (ho : Ordered [publicKeyType] ls.flatten)
    (t t' : Str) (v v' : PVal) (hT : Typed ts t v) (hT' : Typed ts t' v') (he : veil false v = veil false v')
    (d d' : Str) (hv : descriptorOf v = some d) (hv' : descriptorOf v' = some d') (n n' : Node)
    (hw : envelopeProton [valTree v] (schemaProton (ds.map TypeDesc.proton)) = [n])
    (hw' : envelopeProton [valTree v'] (schemaProton (ds.map TypeDesc.proton)) = [n'])
    (sys sys' : System) (hf : FilesFit sys) (hf' : FilesFit sys') (path path' : Str)
    (hh : HoldsBlobAnyHeader sys path n) (hh' : HoldsBlobAnyHeader sys' path' n') :
    (blobInspectorOutput p leftFirst sys [path]).2.dropLast = (blobInspectorOutput p leftFirst sys' [path']).2.dropLast := by
  obtain ⟨before, h⟩ := C101_said p leftFirst ds ts hm hs ls hl ho
  have hi : veil true v = veil true v' := by
    have key : ∀ v : PVal, ∀ d, descriptorOf v = some d → veil true v = veil false v := by
      intro v d hd
      cases v with
      | int => cases hd
      | _ => simp only [veil]
    rw [key v d hv, key v' d' hv', he]
  rw [h t v hT d hv n hw sys hf path hh, h t' v' hT' d' hv' n' hw' sys' hf' path' hh', List.dropLast_concat, List.dropLast_concat]
  have e := remarks_veil (voices p) (some "{ Parsed".toList) v
  have e' := remarks_veil (voices p) (some "{ Parsed".toList) v'
  rw [Option.isSome_some] at e e'
  rw [← e, ← e', hi]

/-! ### Examples -/

/-- `C101_hidden` tells apart: an int in a field, but not one in a list. -/
example : veil false (inV 1) ≠ veil false (inV 2) ∧
    veil false (.list "fpL".toList [.int 5, .str "a".toList]) = veil false (.list "fpL".toList [.int 6, .str "b".toList]) := by
  refine ⟨fun h => ?_, rfl⟩
  simp [inV, veil, veilAll] at h

private def here : Paths := fun _ => "f".toList

/-- The ints of the two objects in the list are told, the text and the truth value are not. -/
example : fieldInts outV = [1, -2] ∧ remarks (voices here) (some "{ Parsed".toList) outV =
    ["[f::46] Read Composite: \n".toList, "[f::299] YEP! it's a list\n".toList,
     "[f::73] l true\n".toList, "STRING\n".toList,
     "[f::46] Read Composite: \n".toList, "[f::299] YEP! it's a list\n".toList, "[f::73] x true\n".toList,
     "[f::37] IntPropertyReader::dump - x\n".toList, "[f::39] FUCK 1\n".toList, "[f::43]     -> 1\n".toList,
     "[f::46] Read Composite: \n".toList, "[f::299] YEP! it's a list\n".toList, "[f::73] x true\n".toList,
     "[f::37] IntPropertyReader::dump - x\n".toList, "[f::39] FUCK 1\n".toList, "[f::43]     -> -2\n".toList,
     "[f::73] i true\n".toList,
     "[f::73] t true\n".toList, "[f::36] StringPropertyReader::dump - t\n".toList, "STRING\n".toList,
     "[f::73] b true\n".toList] := by decide +kernel

/-- They end the trace of an inspection. -/
example : (listRemark here :: remarks (voices here) (some "{ Parsed".toList) outV)
    <:+ (inspectTold here true (blobOf [inD, listD, outD] (valTree outV))).2 := by decide +kernel

/-- Ints outside of fields are not told. -/
example : fieldInts (.list "fpL".toList [.int 5, .int 6]) = [] ∧ remarks (voices here) none (.list "fpL".toList [.int 5, .int 6]) =
    ["STRING\n".toList, "[f::63] IntPropertyReader::dump - no-name\n".toList, "[f::63] IntPropertyReader::dump - no-name\n".toList] := by
  decide +kernel

/-- `C101_said` applies: the int of any `In`. -/
example (leftFirst : Bool) : ∃ before : List Str, ∀ (n : Int) (sys : System), FilesFit sys → ∀ path : Str,
    HoldsBlobAnyHeader sys path (envelopeTree (valTree (inV n)) (schemaTree [listD.tree, inD.tree]) (.mk .null [])) →
    (blobInspectorOutput here leftFirst sys [path]).2 = before ++ ["[f::299] YEP! it's a list\n".toList,
      "[f::46] Read Composite: \n".toList, "[f::299] YEP! it's a list\n".toList, "[f::73] x true\n".toList,
      "[f::37] IntPropertyReader::dump - x\n".toList, "[f::39] FUCK 1\n".toList, intSaid "f".toList (decimal n)]
      ++ [parsedText (inV n) ++ "\n".toList] := by
  obtain ⟨before, h⟩ := C101_said here leftFirst [listD, inD] [madeList, madeIn] made_example (sound_example leftFirst) [[madeIn], [madeList]]
    (by decide +kernel) (by decide +kernel)
  refine ⟨before, fun n sys hf path hh => ?_⟩
  rw [h "In".toList (inV n) ?_ "fpIn".toList rfl _ ?_ sys hf path hh]
  · rfl
  · refine .obj ⟨"In".toList, [], [], "fpIn".toList, [⟨.primitive, "x".toList, "int".toList, [], [], [], true, false, []⟩]⟩ [.int n]
      (by simp [madeIn]) rfl ?_ ?_
    · intro f v t hm ht
      simp only [List.zip_cons_cons, List.zip_nil_right, List.mem_singleton, Prod.mk.injEq] at hm
      obtain ⟨rfl, rfl⟩ := hm
      have : t = "int".toList := by simpa [Field.resolvedType] using ht.symm
      subst this
      exact .int n
    · intro f hm
      simp only [List.mem_singleton] at hm
      subst hm
      exact ⟨_, rfl⟩
  · have : [listD, inD].map TypeDesc.proton = ([listD, inD].map TypeDesc.tree).map fun n => [n] := by
      rw [List.map_map]
      exact List.map_congr_left fun d _ => TypeDesc.proton_eq d
    rw [this, schemaProton_eq, envelopeProton_eq]
    rfl

end Corda.Props

#print axioms Corda.Props.C101_said
#print axioms Corda.Props.C101_ints
#print axioms Corda.Props.C101_hidden
