import Verif.Lemmas.WriteTrace
import Verif.Props.Shown

/-
C102: what the library prints while an object is serialised.
-/

namespace Corda.Props
open Corda Spec

/-! A program to look at: every file is called `f`. -/

private def inner (n : Int) : Obj := .comp "net.In".toList "fpIn".toList [.prim "x".toList false (.int n)]

private def outer : Obj := .comp "net.Out".toList "fpOut".toList
  [.obj "b".toList "net.In".toList false (inner 1), .prim "a".toList true (.string "hi".toList), .prim "c".toList false (.string "ho".toList),
   .obj "l".toList "java.util.List<net.In>".toList false (.list "java.util.List<net.In>".toList "fpL".toList [.obj (inner 2)])]

private def prog : Compiled where
  file _ := "f".toList
  elemType _ := .string
  elemPointer _ := false
  memberType _ := .string
  ids _ := "id".toList
  address := "0x1".toList
  null := "0".toList
  float _ := "1.5".toList
  double _ := "2.5".toList
  keyFirst := true
  impl := fun _ => []

/-! ### The prints change nothing -/

/-- **C102, the result.** Serialising with the prints ends as serialising does without them, whatever the object: same blob, same exception,
same undefined behaviour. -/
theorem C102_end (w : Compiled) (o : Obj) : (serialiseTold w o).1 = serialise o := serialiseTold_end w o

example : (serialiseTold prog (.comp "C".toList "f".toList [.nullPrim "c".toList .char])).1 = .ub "char pointer"
    ∧ ∀ n, (serialiseTold prog (inner n)).1 ≠ .throw "bad_cast" := by
  refine ⟨by decide +kernel, fun n => ?_⟩
  rw [C102_end]
  intro h
  rcases serialise_eq (inner n) with ⟨ds, _, _, h2⟩ | ⟨h2, _⟩ | ⟨_, h2⟩
  · rw [h] at h2; cases h2
  · have : runEvents [] (objEvents (inner n)) ≠ .throw "bad_cast" := by
      simp [inner, objEvents, membersEvents, memberEvents, runEvents, runEvent, List.lookup, mapPut]
    exact this h2
  · rw [h] at h2; cases h2

/-! ### The transcript -/

/-- What is said first: the outermost object is announced if it is a list or a map. -/
def announcedFirst (w : Compiled) : Obj → List Uttered
  | .comp _ _ _ => []
  | .list n f es => [announced w (.list n f es)]
  | .map n f es => [announced w (.map n f es)]

/-- **C102, all of it.** If serialising an object succeeds, then what is printed is the script of the object, without what is said of
properties of a class that were met before, followed by the classes with the number of their properties. -/
theorem C102_transcript (w : Compiled) (o : Obj) (ns : List Node) (h : serialise o = .ok ns) :
    ∃ ds, Describes o ds ∧ (serialiseTold w o).2 = spoken [] (announcedFirst w o ++ recital w o) ++ closing w ds := by
  obtain ⟨ds, h1, h2⟩ := serialiseTold_transcript w o ns h
  refine ⟨ds, h1, ?_⟩
  rw [h2]
  cases o <;> rfl

example : (serialiseTold prog (inner 5)).2 =
    ["[f::63] startComposite - net.In - fpIn\n".toList, "[f::39]   startSerializable: fpIn\n".toList,
     "[f::207] writePrimitive::x::5\n".toList, "[f::284] makeProton - x\n".toList, "[f::228] WRITE IT\n".toList,
     "[f::121] endComposite - net.In\n".toList, "[f::234] toBlob:: m_schemas.size() = 1\n".toList, "[f::244]     * net.In: 1\n".toList,
     "[f::66] make\n".toList, "[f::239] makeProton - net.In fields: #1\n".toList] := by
  decide +kernel

/-- A class that says something itself when it is written. -/
example : (serialiseTold { prog with impl := fun _ => ["[S.cxx::19] serialiseImpl\n".toList] } (inner 5)).2.take 4 =
    ["[f::63] startComposite - net.In - fpIn\n".toList, "[f::39]   startSerializable: fpIn\n".toList,
     "[S.cxx::19] serialiseImpl\n".toList, "[f::207] writePrimitive::x::5\n".toList] := by
  decide +kernel

/-- A property that is a map: the name of its type is asked for, and the names of the types in it are told, the last one first if the compiler
chooses so. -/
example : ∀ b : Bool, ((serialiseTold { prog with keyFirst := b, memberType := fun _ => .map (.other "a::K".toList) (.vector (.other "a::V".toList)) }
      (.comp "C".toList "fpC".toList [.obj "m".toList "M".toList false (.map "M".toList "fpM".toList [])])).2.drop 2).take 4 =
    let k := ["[f::125] javaTypeName = a::K\n".toList, "[f::138] javaTypeName RTN = a.K\n".toList]
    let v := ["[f::125] javaTypeName = a::V\n".toList, "[f::138] javaTypeName RTN = a.V\n".toList]
    if b then k ++ v else v ++ k := by
  decide +kernel

/-- The second object of a class is described no more. -/
example : (serialiseTold prog (.list "L".toList "fpL".toList [.obj (inner 5), .obj (inner 6)])).2.filter
      (fun l => l = "[f::284] makeProton - x\n".toList) = ["[f::284] makeProton - x\n".toList] := by
  decide +kernel

/-! ### The values -/

/-- The texts of a script that are printed always. -/
def steady : List Uttered → List Str
  | [] => []
  | .always t :: r => t :: steady r
  | .first _ _ _ :: r => steady r

theorem steady_append (a b : List Uttered) : steady (a ++ b) = steady a ++ steady b := by
  induction a with
  | nil => rfl
  | cons x a ih => cases x <;> simp [steady, ih]

theorem steady_spoken (r : List Uttered) : ∀ seen, (steady r).Sublist (spoken seen r) := by
  induction r with
  | nil => intro seen; exact .slnil
  | cons x r ih =>
    intro seen
    cases x with
    | always t => exact (ih seen).cons_cons t
    | first k n t =>
      simp only [steady, spoken]
      split
      · exact ih seen
      · exact (ih _).cons t

theorem sub_mid {a b c x : List Str} (h : a.Sublist x) : a.Sublist (b ++ x ++ c) :=
  (h.trans (List.sublist_append_right b x)).trans (List.sublist_append_left _ c)

mutual

theorem steady_object (w : Compiled) : (o : Obj) → (valueTexts w o).Sublist (steady (recital w o))
  | .comp n f ms => by
    rw [valueTexts, recital, steady_append, steady_append]
    refine sub_mid ?_
    rw [steady_append]
    exact (steady_members w (n, f) ms).trans (List.sublist_append_right _ _)
  | .list n f es => by
    rw [valueTexts, recital, steady_append, steady_append]
    exact sub_mid (steady_elems w es)
  | .map n f es => by
    rw [valueTexts, recital, steady_append, steady_append]
    exact sub_mid (steady_entries w es)

theorem steady_members (w : Compiled) (key : Str × Str) : (ms : List Member) →
    (valueTextsMembers w ms).Sublist (steady (recitalMembers w key ms))
  | [] => by rw [valueTextsMembers, recitalMembers]; exact .slnil
  | .prim n false v :: ms => by
    rw [valueTextsMembers, recitalMembers, recitalMember, steady_append]
    exact List.Sublist.append (l₁ := [_]) (by simp [steady, meeting, writing]) (steady_members w key ms)
  | .prim n true v :: ms => by
    rw [valueTextsMembers, recitalMembers, steady_append]
    · exact (steady_members w key ms).trans (List.sublist_append_right _ _)
    all_goals intros; simp_all
  | .nullPrim n t :: ms => by
    rw [valueTextsMembers, recitalMembers, steady_append]
    · exact (steady_members w key ms).trans (List.sublist_append_right _ _)
    all_goals intros; simp_all
  | .obj n t ptr o :: ms => by
    rw [valueTextsMembers, recitalMembers, recitalMember, steady_append, steady_append]
    exact List.Sublist.append ((steady_object w o).trans (List.sublist_append_right _ _)) (steady_members w key ms)
  | .nullObj n t :: ms => by
    rw [valueTextsMembers, recitalMembers, steady_append]
    · exact (steady_members w key ms).trans (List.sublist_append_right _ _)
    all_goals intros; simp_all

theorem steady_elems (w : Compiled) : (es : List Elem) → (valueTextsElems w es).Sublist (steady (recitalElems w es))
  | [] => by rw [valueTextsElems, recitalElems]; exact .slnil
  | e :: es => by
    rw [valueTextsElems, recitalElems, steady_append]
    exact List.Sublist.append (steady_elem w e) (steady_elems w es)

theorem steady_elem (w : Compiled) : (e : Elem) → (valueTextsElem w e).Sublist (steady (recitalElem w e))
  | .prim v => by
    rw [valueTextsElem, recitalElem, steady_append]
    split
    · exact List.nil_sublist _
    · exact List.Sublist.trans (by simp [steady]) (List.sublist_append_right _ _)
  | .nullPrim t => by rw [valueTextsElem]; exact List.nil_sublist _
  | .obj o => by
    rw [valueTextsElem, recitalElem, steady_append]
    exact (steady_object w o).trans (List.sublist_append_right _ _)

theorem steady_entries (w : Compiled) : (es : List Entry) → (valueTextsEntries w es).Sublist (steady (recitalEntries w es))
  | [] => by rw [valueTextsEntries, recitalEntries]; exact .slnil
  | .mk k v :: es => by
    rw [valueTextsEntries, recitalEntries, steady_append, steady_append, steady_append]
    refine List.Sublist.append (List.Sublist.append ?_ (steady_elem w v)) (steady_entries w es)
    exact (steady_elem w k).trans (List.sublist_append_right _ _)

end

/-- **C102, the values.** If serialising an object succeeds, every primitive value in it, however deep, unless it is behind a pointer, has
been printed in the clear, a property with its name, in the order of the object. -/
theorem C102_values (w : Compiled) (o : Obj) (ns : List Node) (h : serialise o = .ok ns) :
    (valueTexts w o).Sublist (serialiseTold w o).2 := by
  obtain ⟨ds, -, h2⟩ := C102_transcript w o ns h
  rw [h2]
  refine List.Sublist.trans ?_ (List.sublist_append_left _ _)
  refine List.Sublist.trans ?_ (steady_spoken _ [])
  rw [steady_append]
  exact (steady_object w o).trans (List.sublist_append_right _ _)

/-- What of `outer` is printed: all but the string behind the pointer. -/
example : valueTexts prog outer =
    ["[f::207] writePrimitive::x::1\n".toList, "[f::207] writePrimitive::c::ho\n".toList, "[f::207] writePrimitive::x::2\n".toList] := by
  decide +kernel

/-! ### Behind a pointer -/

/-- The same property, but for the value behind a pointer to something other than a character. -/
inductive SameBut : Member → Member → Prop
  | same (m) : SameBut m m
  | pointer (n v v') : v.type = v'.type → v.type ≠ .char → SameBut (.prim n true v) (.prim n true v')

/-- The same properties, but for values behind pointers. -/
inductive SameButs : List Member → List Member → Prop
  | nil : SameButs [] []
  | cons {m m' ms ms'} : SameBut m m' → SameButs ms ms' → SameButs (m :: ms) (m' :: ms')

theorem sameBut_recital (w : Compiled) (key : Str × Str) {m m' : Member} (h : SameBut m m') : recitalMember w key m = recitalMember w key m' := by
  cases h with
  | same => rfl
  | pointer n v v' ht hc => rw [recitalMember, recitalMember, ht]

theorem sameBut_classes {m m' : Member} (h : SameBut m m') : classesMember m = classesMember m' := by
  cases h <;> rfl

theorem sameBut_props (key : Str × Str) {m m' : Member} (h : SameBut m m') : propsMember key m = propsMember key m' := by
  cases h with
  | same => rfl
  | pointer n v v' ht hc =>
    simp only [propsMember, memberDesc, ht]

theorem sameButs_all (w : Compiled) (key : Str × Str) {ms ms' : List Member} (h : SameButs ms ms') :
    recitalMembers w key ms = recitalMembers w key ms' ∧ classesMembers ms = classesMembers ms'
      ∧ propsMembers key ms = propsMembers key ms' := by
  induction h with
  | nil => exact ⟨rfl, rfl, rfl⟩
  | cons hm _ ih =>
    obtain ⟨h1, h2, h3⟩ := ih
    refine ⟨?_, ?_, ?_⟩
    · rw [recitalMembers, recitalMembers, h1, sameBut_recital w key hm]
    · rw [classesMembers, classesMembers, h2, sameBut_classes hm]
    · rw [propsMembers, propsMembers, h3, sameBut_props key hm]

/-- **C102, what is not printed.** Two objects of a class that differ in nothing but values behind pointers, none of them characters, print
the same. -/
theorem C102_hidden (w : Compiled) (n f : Str) (ms ms' : List Member) (h : SameButs ms ms') (ns ns' : List Node)
    (h1 : serialise (.comp n f ms) = .ok ns) (h2 : serialise (.comp n f ms') = .ok ns') :
    (serialiseTold w (.comp n f ms)).2 = (serialiseTold w (.comp n f ms')).2 := by
  obtain ⟨ds, hd, e⟩ := C102_transcript w _ ns h1
  obtain ⟨ds', hd', e'⟩ := C102_transcript w _ ns' h2
  obtain ⟨k1, k2, k3⟩ := sameButs_all w (n, f) h
  have kc : classes (.comp n f ms) = classes (.comp n f ms') := by rw [classes, classes, k2]
  have kp : props (.comp n f ms) = props (.comp n f ms') := by rw [props, props, k3]
  have hd2 : Describes (.comp n f ms') ds := by
    constructor
    · exact hd.sorted
    · exact hd.once
    · rw [← kc]; exact hd.exact
    · rw [← kc]; exact hd.container
    · exact hd.propsSorted
    · exact hd.propsOnce
    · rw [← kp]; exact hd.propsExact
  rw [e, e', describes_unique hd2 hd']
  rw [recital, recital, k1]
  rfl

/-- A password behind a pointer is not printed, one that is not is. -/
example :
    let o (ptr : Bool) (s : String) : Obj := .comp "C".toList "f".toList [.prim "password".toList ptr (.string s.toList)]
    (serialiseTold prog (o true "abc")).2 = (serialiseTold prog (o true "xyz")).2
      ∧ "[f::207] writePrimitive::password::abc\n".toList ∈ (serialiseTold prog (o false "abc")).2 := by
  decide +kernel

/-! ### The dump of the schema -/

/-- **C102, the dump.** After an object has been written, `dump` shows each of its classes once, in order, with the name, the fingerprint
and the number of properties described. -/
theorem C102_dump (o : Obj) (ns : List Node) (h : serialise o = .ok ns) :
    ∃ ds, Describes o ds ∧ (Wr.object o WState.init).2.dump = ds.map fun d =>
      "  *    [ ".toList ++ d.key.1 ++ ", ".toList ++ d.key.2 ++ "] : ".toList
        ++ decimalNat (match d.body with | .inl ps => ps.length | .inr _ => 0) ++ "\n".toList := by
  obtain ⟨s, out, ds, hr, hs, hds⟩ := object_end prog o ns h
  refine ⟨ds, hds, ?_⟩
  have he := congrFun (TWr.erase_object prog true o) WState.init
  unfold TWr.erase at he
  rw [hr] at he
  rw [← he]
  simp only [WState.dump, hs, List.map_map]
  refine List.map_congr_left fun d _ => ?_
  simp only [Function.comp]
  rw [natStr_eq, entry_size, ClassDesc.entry_fst]
  rfl

example : (Wr.object outer WState.init).2.dump =
    ["  *    [ java.util.List<net.In>, fpL] : 0\n".toList, "  *    [ net.In, fpIn] : 1\n".toList, "  *    [ net.Out, fpOut] : 4\n".toList] := by
  decide +kernel

end Corda.Props

#print axioms Corda.Props.C102_end
#print axioms Corda.Props.C102_transcript
#print axioms Corda.Props.C102_values
#print axioms Corda.Props.C102_hidden
#print axioms Corda.Props.C102_dump
