import Verif.Model.InspectTrace
import Verif.Spec.WholeLines
import Verif.Spec.AnyInspect
import Verif.Spec.AnyData
import Verif.Lemmas.Alike
import Verif.Lemmas.OrderingR
import Verif.Lemmas.BulkNames
import Verif.Lemmas.Safe

/-
Everything the tools print in front of the dump ends in a line end.
-/

namespace Corda
open Corda.Spec

/-- All pieces end in a line end. -/
def Whole (o : List Str) : Prop := ∀ s ∈ o, EndsLine s

theorem Whole.nil : Whole [] := by intro s h; cases h
theorem Whole.append {a b : List Str} (ha : Whole a) (hb : Whole b) : Whole (a ++ b) := by
  intro s h; rcases List.mem_append.mp h with h | h
  · exact ha s h
  · exact hb s h
theorem Whole.one {s : Str} (h : EndsLine s) : Whole [s] := by
  intro t ht; cases List.mem_singleton.mp ht; exact h
theorem ends_nl (s : Str) : EndsLine (s ++ nl) := ⟨s, rfl⟩
theorem ends_traceLine (f : Str) (l : Nat) (t : Str) : EndsLine (traceLine f l t) := ⟨_, rfl⟩

/-- Programs that print whole lines. -/
def WP {α : Type} (p : TProg α) : Prop := ∀ c, Whole (p c).2
/-- Likewise. -/
def WT {α : Type} (r : Telling α) : Prop := Whole r.out
/-- Likewise. -/
def WF {α : Type} (p : TFProg α) : Prop := ∀ F, Whole (p F).2

namespace WT
variable {α β : Type}
theorem of {r : Telling α} (h : Whole r.out) : WT r := h
theorem pure (a : α) : WT (Pure.pure a : Telling α) := Whole.nil
theorem quiet (r : Res α) : WT (Telling.quiet r) := Whole.nil
theorem dbg (f : Str) (l : Nat) (t : Str) : WT (Telling.dbg f l t) := Whole.one (ends_traceLine _ _ _)
theorem bind {p : Telling α} {f : α → Telling β} (hp : WT p) (hf : ∀ a, WT (f a)) : WT (p >>= f) := by
  obtain ⟨r, o⟩ := p
  cases r with
  | ok a => exact Whole.append hp (hf a)
  | throw m => exact hp
  | ub m => exact hp
theorem ite {c : Prop} [Decidable c] {a b : Telling α} (ha : WT a) (hb : WT b) : WT (if c then a else b) := by split <;> assumption
end WT

namespace WP
variable {α β : Type}
theorem of {p : TProg α} (h : ∀ c, Whole (p c).2) : WP p := h
theorem «at» {p : TProg α} (h : WP p) (c : Cursor) : Whole (p c).2 := h c
theorem pure (a : α) : WP (Pure.pure a : TProg α) := fun _ => Whole.nil
theorem quiet (r : Prog α) : WP (TProg.quiet r) := fun _ => Whole.nil
theorem print (t : Str) : WP (TProg.print t) := fun _ => Whole.one (ends_nl _)
theorem dbg (f : Str) (l : Nat) (t : Str) : WP (TProg.dbg f l t) := fun _ => Whole.one (ends_nl _)
theorem tell {r : Telling α} (h : WT r) : WP (TProg.tell r) := fun _ => h
theorem bind {p : TProg α} {f : α → TProg β} (hp : WP p) (hf : ∀ a, WP (f a)) : WP (p >>= f) := by
  intro c
  show Whole (TProg.bind p f c).2
  unfold TProg.bind
  have h := hp c
  split
  · rename_i a c' out e; rw [e] at h; exact Whole.append h (hf a c')
  · rename_i m c' out e; rw [e] at h; exact h
  · rename_i m c' out e; rw [e] at h; exact h
theorem scope {k : Cursor → Cursor} {b : TProg α} (h : WP b) : WP (TProg.scope k b) := fun c => h (k c)
theorem autoEnter {b : TProg α} {n : Bool} (h : WP b) : WP (TProg.autoEnter b n) := scope h
theorem autoListEnter {b : Nat → TProg α} (h : ∀ n, WP (b n)) : WP (TProg.autoListEnter b) := fun c => scope (h _) c
theorem autoMapEnter {b : Nat → TProg α} (h : ∀ n, WP (b n)) : WP (TProg.autoMapEnter b) := fun c => scope (h _) c
theorem listEnter {b : Nat → TProg α} {n : Bool} (h : ∀ n, WP (b n)) : WP (TProg.listEnter b n) := fun c => scope (h _) c
theorem autoNext {b : TProg α} (h : WP b) : WP (TProg.autoNext b) := fun c => h c
theorem readText (t : Bool) : WP (TProg.readText t) := bind (print _) fun _ => quiet _
theorem readString : WP TProg.readString := bind (print _) fun _ => quiet _
theorem attestList (f : Files) : WP (TProg.attestList f) := bind (quiet _) fun _ => dbg _ _ _
theorem attestIsList (f : SchemaFiles) : WP (TProg.attestIsList f) := bind (quiet _) fun _ => dbg _ _ _
theorem checkList (p : Paths) : WP (TProg.checkList p) := bind (quiet _) fun _ => dbg _ _ _
theorem ite {c : Prop} [Decidable c] {a b : TProg α} (ha : WP a) (hb : WP b) : WP (if c then a else b) := by split <;> assumption
theorem dbgData (f : Str) (l : Nat) (t : Str) : WP (TProg.dbgData f l t) := bind (quiet _) fun _ => dbg _ _ _
theorem byType {b : TProg Str} (h : WP b) : WP (TProg.byType b) := bind (quiet _) fun _ => ite h (quiet _)
theorem whileNext {b : TProg α} (h : WP b) : WP (TProg.whileNext b) := by
  have : ∀ n, WP (TProg.whileNextGo b n) := by
    intro n
    induction n with
    | zero => exact quiet _
    | succ n ih => exact bind (quiet _) fun _ => ite (bind h fun _ => bind ih fun _ => pure _) (pure _)
  exact fun c => this _ c
theorem times {b : TProg α} (h : WP b) (n : Nat) : WP (TProg.times b n) := by
  induction n with
  | zero => exact pure _
  | succ n ih => exact bind h fun _ => bind ih fun _ => pure _
theorem forNext {b : Nat → TProg Str} (h : ∀ i, WP (b i)) : WP (TProg.forNext b) := by
  have : ∀ n i, WP (TProg.forNextGo b n i) := by
    intro n
    induction n with
    | zero => exact fun _ => quiet _
    | succ n ih => exact fun i => bind (quiet _) fun _ => ite (bind (h i) fun _ => bind (ih _) fun _ => pure _) (pure _)
  exact fun c => this _ _ c
theorem foldNext {σ : Type} {b : Nat → σ → TProg σ} (h : ∀ i s, WP (b i s)) (s : σ) : WP (TProg.foldNext b s) := by
  have : ∀ n i s, WP (TProg.foldNextGo b n i s) := by
    intro n
    induction n with
    | zero => exact fun _ _ => quiet _
    | succ n ih => exact fun i s => bind (quiet _) fun _ => ite (bind (h i s) fun _ => ih _ _) (pure _)
  exact fun c => this _ _ _ c
end WP

namespace WF
variable {α β : Type}
theorem of {p : TFProg α} (h : ∀ F, Whole (p F).2) : WF p := h
theorem «at» {p : TFProg α} (h : WF p) (F : Factory) : Whole (p F).2 := h F
theorem pure (a : α) : WF (Pure.pure a : TFProg α) := fun _ => Whole.nil
theorem quiet (r : FProg α) : WF (TFProg.quiet r) := fun _ => Whole.nil
theorem dbg (p : Paths) (l : Nat) (t : Str) : WF (TFProg.dbg p l t) := fun _ => Whole.one (ends_traceLine _ _ _)
theorem tell {r : Telling α} (h : WT r) : WF (TFProg.tell r) := fun _ => h
theorem nameAt (n : Nat → Str) (i : Nat) : WF (TFProg.nameAt n i) := fun _ => Whole.nil
theorem typeOf (i : Nat) : WF (TFProg.typeOf i) := fun _ => Whole.nil
theorem bind {p : TFProg α} {f : α → TFProg β} (hp : WF p) (hf : ∀ a, WF (f a)) : WF (p >>= f) := by
  intro c
  show Whole (TFProg.bind p f c).2
  unfold TFProg.bind
  have h := hp c
  split
  · rename_i a c' out e; rw [e] at h; exact Whole.append h (hf a c')
  · rename_i m c' out e; rw [e] at h; exact h
  · rename_i m c' out e; rw [e] at h; exact h
theorem ite {c : Prop} [Decidable c] {a b : TFProg α} (ha : WF a) (hb : WF b) : WF (if c then a else b) := by split <;> assumption
end WF

attribute [irreducible] WP WT WF

/-- Goes through the statements of a program. -/
macro "whole" : tactic => `(tactic| repeat' (first
  | with_reducible assumption
  | with_reducible exact WP.quiet _ | with_reducible exact WP.pure _ | with_reducible exact WP.dbg _ _ _ | with_reducible exact WP.print _ | with_reducible exact WP.readText _ | with_reducible exact WP.readString
  | with_reducible exact WP.attestList _ | with_reducible exact WP.attestIsList _ | with_reducible exact WP.checkList _ | with_reducible exact WP.dbgData _ _ _
  | with_reducible refine WP.bind ?_ ?_ | with_reducible refine WP.autoEnter ?_ | with_reducible refine WP.autoListEnter ?_ | with_reducible refine WP.autoMapEnter ?_ | with_reducible refine WP.listEnter ?_
  | with_reducible refine WP.autoNext ?_ | with_reducible refine WP.byType ?_ | with_reducible refine WP.whileNext ?_ | with_reducible refine WP.times ?_ _ | with_reducible refine WP.forNext ?_
  | with_reducible refine WP.foldNext ?_ _ | with_reducible refine WP.tell ?_
  | with_reducible exact WT.pure _ | with_reducible exact WT.quiet _ | with_reducible exact WT.dbg _ _ _ | with_reducible refine WT.bind ?_ ?_
  | with_reducible exact WF.pure _ | with_reducible exact WF.quiet _ | with_reducible exact WF.dbg _ _ _ | with_reducible exact WF.nameAt _ _ | with_reducible exact WF.typeOf _ | with_reducible refine WF.bind ?_ ?_ | with_reducible refine WF.tell ?_
  | with_reducible apply_assumption
  | with_reducible intro _
  | with_reducible refine WP.ite ?_ ?_ | with_reducible refine WT.ite ?_ ?_ | with_reducible refine WF.ite ?_ ?_
  | split
  | (dsimp only)))

/-! ### The data dumper -/

theorem whole_rawList (f : Files) {rec : PnType → TProg Val} (h : ∀ t, WP (rec t)) : WP (TProg.rawList f rec) := by
  delta TProg.rawList; whole
theorem whole_rawStep (f : Files) (l : Nat) {rec : PnType → TProg Val} (h : ∀ t, WP (rec t)) : WP (TProg.rawStep f l rec) := by
  delta TProg.rawStep; whole
theorem whole_rawMap (f : Files) {rec : PnType → TProg Val} (h : ∀ t, WP (rec t)) : WP (TProg.rawMap f rec) := by
  have h1 := whole_rawStep f 179 h
  have h2 := whole_rawStep f 188 h
  delta TProg.rawMap TProg.rawPair; whole
theorem whole_rawDescribed (f : Files) {rec : PnType → TProg Val} (h : ∀ t, WP (rec t)) : WP (TProg.rawDescribed f rec) := by
  have h1 := whole_rawMap f h
  have h2 := whole_rawList f h
  delta TProg.rawDescribed; whole
theorem whole_rawAs (f : Files) (n : Nat) : ∀ t, WP (TProg.rawAs f n t) := by
  induction n with
  | zero => intro t; exact WP.quiet _
  | succ n ih =>
    intro t
    have h1 := whole_rawMap f ih
    have h2 := whole_rawList f ih
    have h3 := whole_rawDescribed f ih
    unfold TProg.rawAs; whole
theorem whole_dumpData (f : Files) : WP (TProg.dumpData f) := by
  refine WP.of fun c => ?_
  have h := whole_rawDescribed f (whole_rawAs f c.fuel)
  delta TProg.dumpData
  have : WP (do
    let d ← TProg.quiet Prog.isDescribed
    if d then do
      TProg.quiet Prog.attestDescribed
      TProg.quiet (Prog.autoEnter (do
        let key ← Prog.readUint64
        if stripCorda key = ENVELOPE then pure () else Prog.ub "assert"))
      let v ← TProg.autoEnter (do
        TProg.attestList f
        TProg.autoListEnter (fun _ => do
          TProg.quiet Prog.attestDescribed
          TProg.rawDescribed f (TProg.rawAs f c.fuel))) true
      pure v.dump
    else TProg.quiet (Prog.ub "null value") : TProg Str) := by whole
  exact this.«at» c

/-! ### The schema dumper -/


theorem whole_schemaObject (f : SchemaFiles) (ai : Str) : WP (TProg.schemaObject f ai) := by
  delta TProg.schemaObject; whole

theorem whole_schemaField (f : SchemaFiles) (ai : Str) : WP (TProg.schemaField f ai) := by
  delta TProg.schemaField; whole

theorem whole_avroObject (f : SchemaFiles) (ai : Str) : WP (TProg.avroObject f ai) := by
  delta TProg.avroObject; whole

theorem whole_avroField (f : SchemaFiles) (ai : Str) : WP (TProg.avroField f ai) := by
  delta TProg.avroField; whole

theorem whole_schemaComposite (f : SchemaFiles) {base : Str → TProg Str} (h : ∀ a, WP (base a)) (ai : Str) : WP (TProg.schemaComposite f base ai) := by
  delta TProg.schemaComposite; whole

theorem whole_schemaRestricted (f : SchemaFiles) {base : Str → TProg Str} (h : ∀ a, WP (base a)) (ai : Str) : WP (TProg.schemaRestricted f base ai) := by
  delta TProg.schemaRestricted; whole

theorem whole_schemaSchema (f : SchemaFiles) {base : Str → TProg Str} (h : ∀ a, WP (base a)) (ai : Str) : WP (TProg.schemaSchema f base ai) := by
  delta TProg.schemaSchema; whole

theorem whole_schemaEnvelope (f : SchemaFiles) {base : Str → TProg Str} (h : ∀ a, WP (base a)) (ai : Str) : WP (TProg.schemaEnvelope f base ai) := by
  delta TProg.schemaEnvelope; whole

theorem whole_avroComposite (f : SchemaFiles) {base : Str → TProg Str} (h : ∀ a, WP (base a)) (ai : Str) : WP (TProg.avroComposite f base ai) := by
  delta TProg.avroComposite; whole

theorem whole_avroSchema (f : SchemaFiles) {base : Str → TProg Str} (h : ∀ a, WP (base a)) (ai : Str) : WP (TProg.avroSchema f base ai) := by
  delta TProg.avroSchema; whole

theorem whole_avroEnvelope (f : SchemaFiles) {base : Str → TProg Str} (h : ∀ a, WP (base a)) (ai : Str) : WP (TProg.avroEnvelope f base ai) := by
  delta TProg.avroEnvelope; whole

theorem whole_schemaFor (f : SchemaFiles) {base : Str → TProg Str} (h : ∀ a, WP (base a)) (key : Nat) (ai : Str) : WP (TProg.schemaFor f base key ai) := by
  have h0 := whole_schemaObject f ai
  have h1 := whole_schemaField f ai
  have h2 := whole_schemaComposite f h ai
  have h3 := whole_schemaRestricted f h ai
  have h4 := whole_schemaSchema f h ai
  have h5 := whole_schemaEnvelope f h ai
  delta TProg.schemaFor; whole

theorem whole_avroFor (f : SchemaFiles) {base : Str → TProg Str} (h : ∀ a, WP (base a)) (key : Nat) (ai : Str) : WP (TProg.avroFor f base key ai) := by
  have h0 := whole_avroObject f ai
  have h1 := whole_avroField f ai
  have h2 := whole_avroComposite f h ai
  have h3 := whole_avroSchema f h ai
  have h4 := whole_avroEnvelope f h ai
  delta TProg.avroFor; whole

theorem whole_schemaBody (f : SchemaFiles) {base : Str → TProg Str} (h : ∀ a, WP (base a)) (ai : Str) : WP (TProg.schemaBody f base ai) := by
  have h1 := whole_schemaFor f h
  delta TProg.schemaBody; whole

theorem whole_avroBody (f : SchemaFiles) {base : Str → TProg Str} (h : ∀ a, WP (base a)) (ai : Str) : WP (TProg.avroBody f base ai) := by
  have h1 := whole_avroFor f h
  delta TProg.avroBody; whole

theorem whole_schemaBase (f : SchemaFiles) (n : Nat) : ∀ ai, WP (TProg.schemaBase f n ai) := by
  induction n with
  | zero => intro _; exact WP.quiet _
  | succ n ih => intro ai; exact WP.autoEnter (whole_schemaBody f ih ai)

theorem whole_avroBase (f : SchemaFiles) (n : Nat) : ∀ ai, WP (TProg.avroBase f n ai) := by
  induction n with
  | zero => intro _; exact WP.quiet _
  | succ n ih => intro ai; exact WP.autoEnter (whole_avroBody f ih ai)

theorem whole_dumpSchema (f : SchemaFiles) (t : DumpTarget) : WP (TProg.dumpSchema f t) := by
  refine WP.of fun c => ?_
  delta TProg.dumpSchema
  refine WP.«at» ?_ c
  have h1 := whole_schemaBase f c.fuel
  have h2 := whole_avroBase f c.fuel
  cases t <;> whole


/-! ### The blob inspector: the schema -/


theorem whole_isPrimitive (p : Paths) (t : Str) : WT (Telling.isPrimitive p t) := by
  delta Telling.isPrimitive; whole

theorem whole_fieldBase (p : Paths) (t : Str) : WT (Telling.fieldBase p t) := by
  delta Telling.fieldBase; whole

theorem whole_restrictedBase (p : Paths) (n t : Str) (r : List Str) : WT (Telling.restrictedBase p n t r) := by
  have h := whole_fieldBase p
  delta Telling.restrictedBase; whole

theorem whole_makeField (p : Paths) (n t : Str) (r : List Str) (d l : Str) (m k : Bool) : WT (Telling.makeField p n t r d l m k) := by
  have h := whole_fieldBase p
  have h1 := whole_restrictedBase p
  have h2 := whole_isPrimitive p
  delta Telling.makeField
  cases r <;> whole

theorem whole_makeRestricted (p : Paths) (d n l : Str) (v : List Str) (s : Str) (c : List Str) : WT (Telling.makeRestricted p d n l v s c) := by
  delta Telling.makeRestricted; whole

theorem whole_anyResolvedCR (p : Paths) (n : Str) (fs : List Field) : WT (Telling.anyResolvedCR p n fs) := by
  induction fs with
  | nil => exact WT.pure _
  | cons f fs ih => unfold Telling.anyResolvedCR; whole

theorem whole_anyPart (p : Paths) (n : Str) (fs : List Str) : WT (Telling.anyPart p n fs) := by
  induction fs with
  | nil => exact WT.pure _
  | cons f fs ih => unfold Telling.anyPart; whole

theorem whole_anySub (p : Paths) (n : Str) (fs : List Str) : WT (Telling.anySub p n fs) := by
  induction fs with
  | nil => exact WT.pure _
  | cons f fs ih => unfold Telling.anySub; whole

theorem whole_anyDeepT (p : Paths) (o n : Str) (fs : List Field) : WT (Telling.anyDeepT p o n fs) := by
  have h := whole_anySub p
  induction fs with
  | nil => exact WT.pure _
  | cons f fs ih => unfold Telling.anyDeepT; whole

theorem whole_anyResolvedCC (p : Paths) (n : Str) (fs : List Field) : WT (Telling.anyResolvedCC p n fs) := by
  induction fs with
  | nil => exact WT.pure _
  | cons f fs ih => unfold Telling.anyResolvedCC; whole

theorem whole_compositeComposite (p : Paths) (a b : Composite) : WT (Telling.compositeComposite p a b) := by
  have h := whole_anyDeepT p
  have h1 := whole_anyResolvedCC p
  delta Telling.compositeComposite; whole
theorem whole_compositeRestricted (p : Paths) (a : Composite) (b : Restricted) : WT (Telling.compositeRestricted p a b) := by
  have h := whole_anyResolvedCR p
  have h1 := whole_anyPart p
  delta Telling.compositeRestricted; whole
theorem whole_restrictedRestricted (p : Paths) (a b : Restricted) : WT (Telling.restrictedRestricted p a b) := by
  delta Telling.restrictedRestricted; whole
theorem whole_dependsOn (p : Paths) (a b : TypeNotation) : WT (Telling.dependsOn p a b) := by
  have h := whole_compositeComposite p
  have h1 := whole_compositeRestricted p
  have h2 := whole_restrictedRestricted p
  cases a <;> cases b <;> delta Telling.dependsOn <;> dsimp only <;> whole
theorem whole_scanLevel (p : Paths) (x : TypeNotation) (k : Nat) (fs : List TypeNotation) : ∀ c, WT (Telling.scanLevel p x k c fs) := by
  have h := whole_dependsOn p
  induction fs with
  | nil => intro c; exact WT.pure _
  | cons f fs ih => intro c; unfold Telling.scanLevel; whole
theorem whole_findPos (p : Paths) (x : TypeNotation) (fs : List (List TypeNotation)) : ∀ k c, WT (Telling.findPos p x k c fs) := by
  have h := whole_scanLevel p x
  induction fs with
  | nil => intro k c; exact WT.pure _
  | cons f fs ih => intro k c; unfold Telling.findPos; whole
theorem whole_shuffle (p : Paths) {rec : TypeNotation → List (List TypeNotation) → Telling (List (List TypeNotation))}
    (hr : ∀ x l, WT (rec x l)) (x : TypeNotation) (fs : List TypeNotation) : ∀ post, WT (Telling.shuffle p rec x fs post) := by
  have h := whole_dependsOn p
  induction fs with
  | nil => intro c; exact WT.pure _
  | cons f fs ih => intro c; unfold Telling.shuffle; whole
theorem whole_insGo (p : Paths) (n : Nat) : ∀ x l, WT (Telling.insGo p n x l) := by
  have h := whole_findPos p
  induction n with
  | zero => intro x l; exact WT.quiet _
  | succ n ih =>
    intro x l
    have h1 := whole_shuffle p ih
    unfold Telling.insGo; whole
theorem whole_insertType (p : Paths) (l : List (List TypeNotation)) (x : TypeNotation) : WT (Telling.insertType p l x) := whole_insGo p _ _ _
theorem whole_makeSchema (p : Paths) (l : List (List TypeNotation)) : WT (Telling.makeSchema p l) := by
  refine WT.of fun s hs => ?_
  obtain ⟨t, -, rfl⟩ := List.mem_map.mp hs
  exact ends_traceLine _ _ _

theorem whole_fieldBody (p : Paths) : WP (TProg.fieldBody p) := by
  have h := whole_makeField p
  delta TProg.fieldBody; whole
theorem whole_fieldBuild (p : Paths) : WP (TProg.fieldBuild p) := by
  have h := whole_fieldBody p
  delta TProg.fieldBuild; whole
theorem whole_objectBuild (p : Paths) : WP (TProg.objectBuild p) := by
  delta TProg.objectBuild; whole
theorem whole_compositeBuild (p : Paths) {rec : TProg Element} (h : WP rec) : WP (TProg.compositeBuild p rec) := by
  delta TProg.compositeBuild TProg.compositeBody; whole
theorem whole_restrictedBuild (p : Paths) {rec : TProg Element} (h : WP rec) : WP (TProg.restrictedBuild p rec) := by
  have h1 := whole_makeRestricted p
  delta TProg.restrictedBuild TProg.restrictedBody; whole
theorem whole_schemaStep (p : Paths) {rec : TProg Element} (h : WP rec) (l : List (List TypeNotation)) : WP (TProg.schemaStep p rec l) := by
  have h1 := whole_insertType p
  have h2 : ∀ l, WT (⟨.ok (), [TProg.listing p l]⟩ : Telling Unit) := fun l => WT.of (Whole.one (ends_traceLine _ _ _))
  delta TProg.schemaStep; whole
theorem whole_schemaBuild (p : Paths) {rec : TProg Element} (h : WP rec) : WP (TProg.schemaBuild p rec) := by
  have h1 := whole_makeSchema p
  have h2 := whole_schemaStep p h
  delta TProg.schemaBuild; whole
theorem whole_envelopeBuild (p : Paths) {rec : TProg Element} (h : WP rec) : WP (TProg.envelopeBuild p rec) := by
  delta TProg.envelopeBuild TProg.envelopeBody; whole
theorem whole_nullBuild (p : Paths) (k l : Nat) (w : Str) : WP (TProg.nullBuild p k l w) := by
  delta TProg.nullBuild; whole
theorem whole_build (p : Paths) {rec : TProg Element} (h : WP rec) (id : Nat) : WP (TProg.build p rec id) := by
  have h1 := whole_fieldBuild p
  have h2 := whole_objectBuild p
  have h3 := whole_compositeBuild p h
  have h4 := whole_restrictedBuild p h
  have h5 := whole_schemaBuild p h
  have h6 := whole_envelopeBuild p h
  have h7 := whole_nullBuild p
  delta TProg.build; whole
theorem whole_dispatch (p : Paths) (n : Nat) : WP (TProg.dispatch p n) := by
  induction n with
  | zero => exact WP.quiet _
  | succ n ih =>
    have h := whole_build p ih
    unfold TProg.dispatch TProg.dispatchBody; whole
theorem whole_readEnvelope (p : Paths) : WP (TProg.readEnvelope p) := by
  refine WP.of fun c => ?_
  have h := whole_build p (whole_dispatch p c.fuel)
  delta TProg.readEnvelope
  refine WP.«at» ?_ c
  refine WP.bind (WP.quiet _) fun d => WP.ite (WP.bind (WP.autoEnter (WP.bind (WP.quiet _) fun _ => h _)) fun e => ?_) (WP.quiet _)
  cases e <;> first | exact WP.pure _ | exact WP.quiet _


/-! ### The blob inspector: the readers -/

theorem whole_computeIfAbsent (p : Paths) (names : Nat → Str) (k : Str) {f : TFProg Nat} (h : WF f) :
    WF (TFProg.computeIfAbsent p names k f) := by
  refine WF.of fun F => ?_
  delta TFProg.computeIfAbsent
  split
  · refine WF.«at» ?_ F; whole
  · refine WF.«at» ?_ F; whole
  · refine WF.«at» ?_ F; whole
theorem whole_fieldReader (p : Paths) (names : Nat → Str) (n : Str) (r : Nat) (f : Field) : WF (TFProg.fieldReader p names n r f) := by
  have h : ∀ k t, WF (TFProg.computeIfAbsent p names k (TFProg.quiet (FProg.makeProperty t))) :=
    fun k t => whole_computeIfAbsent p names k (WF.quiet _)
  delta TFProg.fieldReader
  refine WF.bind (WF.quiet _) fun t => WF.bind (WF.dbg _ _ _) fun _ => ?_
  generalize f.AMQPType = a
  cases a <;> whole
theorem whole_fieldReaders (p : Paths) (names : Nat → Str) (n : Str) (r : Nat) (fs : List Field) : WF (TFProg.fieldReaders p names n r fs) := by
  induction fs with
  | nil => exact WF.pure _
  | cons f fs ih =>
    unfold TFProg.fieldReaders
    refine WF.bind (whole_fieldReader p names n r f) fun o => ?_
    cases o with
    | none => exact WF.quiet _
    | some i => exact WF.bind ih fun _ => WF.pure _
theorem whole_processComposite (p : Paths) (names : Nat → Str) (c : Composite) : WF (TFProg.processComposite p names c) := by
  have h := whole_fieldReaders p names
  delta TFProg.processComposite; whole
theorem whole_fetchReader (p : Paths) (names : Nat → Str) (t : Str) : WF (TFProg.fetchReader p names t) := by
  have h : ∀ k t, WF (TFProg.computeIfAbsent p names k (TFProg.quiet (FProg.makeProperty t))) :=
    fun k t => whole_computeIfAbsent p names k (WF.quiet _)
  have h1 := whole_isPrimitive p
  delta TFProg.fetchReader; whole
theorem whole_processRestricted (p : Paths) (names : Nat → Str) (lf : Bool) (r : Restricted) : WF (TFProg.processRestricted p names lf r) := by
  have h := whole_fetchReader p names
  delta TFProg.processRestricted
  refine WF.bind (WF.dbg _ _ _) fun _ => ?_
  generalize r.kind = a
  cases a <;> whole
theorem whole_processType (p : Paths) (names : Nat → Str) (lf : Bool) (t : TypeNotation) : WF (TFProg.processType p names lf t) := by
  have h := whole_processComposite p names
  have h1 := whole_processRestricted p names lf
  delta TFProg.processType
  refine WF.bind (WF.dbg _ _ _) fun _ => whole_computeIfAbsent p names _ ?_
  cases t with
  | comp c => exact h c
  | restr r => exact h1 r
theorem whole_processAll (p : Paths) (names : Nat → Str) (lf : Bool) (ts : List TypeNotation) : WF (TFProg.processAll p names lf ts) := by
  induction ts with
  | nil => exact WF.pure _
  | cons t ts ih =>
    exact WF.bind (WF.bind (whole_processType p names lf t) fun _ => WF.bind (WF.quiet _) fun _ => WF.quiet _) fun _ => ih
theorem whole_process (p : Paths) (names : Nat → Str) (lf : Bool) (s : Schema) : WF (TFProg.process p names lf s) :=
  WF.bind (WF.dbg _ _ _) fun _ => whole_processAll p names lf _

/-! ### The blob inspector: the payload -/

theorem whole_propertyDump (p : Paths) (n : Option Str) (q : PrimReader) : WP (TProg.propertyDump p n q) := by
  cases n <;> cases q <;> delta TProg.propertyDump <;> dsimp only <;> whole
theorem whole_useReader (F : Factory) {rec : Nat → Option Str → TProg Val} (h : ∀ i n, WP (rec i n)) (i : Nat) : WP (TProg.useReader F rec i) := by
  delta TProg.useReader; whole
theorem whole_dumpFields (p : Paths) (F : Factory) {rec : Nat → Option Str → TProg Val} (h : ∀ i n, WP (rec i n)) (fs : List (Field × Nat)) :
    WP (TProg.dumpFields p F rec fs) := by
  induction fs with
  | nil => exact WP.pure _
  | cons f fs ih => unfold TProg.dumpFields; whole
theorem whole_compositeDump (p : Paths) (F : Factory) (s : Schema) {rec : Nat → Option Str → TProg Val} (h : ∀ i n, WP (rec i n)) (l : List Nat) :
    WP (TProg.compositeDump p F s rec l) := by
  have h1 := whole_dumpFields p F h
  delta TProg.compositeDump
  refine WP.bind (WP.dbg _ _ _) fun _ => WP.bind (WP.quiet _) fun _ => WP.autoEnter (WP.bind (WP.quiet _) fun _ => WP.bind (WP.quiet _) fun t => ?_)
  cases t <;> whole
theorem whole_listDump (F : Factory) (s : Schema) {rec : Nat → Option Str → TProg Val} (h : ∀ i n, WP (rec i n)) (l : List Nat) :
    WP (TProg.listDump F s rec l) := by
  have h1 := whole_useReader F h
  delta TProg.listDump; whole
theorem whole_mapEntry (lf : Bool) {k v : TProg Val} (hk : WP k) (hv : WP v) : WP (TProg.mapEntry lf k v) := by
  delta TProg.mapEntry; whole
theorem whole_mapDump (p : Paths) (lf : Bool) (F : Factory) (s : Schema) {rec : Nat → Option Str → TProg Val} (h : ∀ i n, WP (rec i n)) (l : List Nat) :
    WP (TProg.mapDump p lf F s rec l) := by
  have h1 : ∀ k v, WP (TProg.mapEntry lf (TProg.useReader F rec k) (TProg.useReader F rec v)) :=
    fun k v => whole_mapEntry lf (whole_useReader F h k) (whole_useReader F h v)
  delta TProg.mapDump; whole
theorem whole_enumValue : WP TProg.enumValue := by
  delta TProg.enumValue; whole
theorem whole_dumpWith (p : Paths) (cu : Customs) (lf : Bool) (F : Factory) (s : Schema) {rec : Nat → Option Str → TProg Val}
    (h : ∀ i n, WP (rec i n)) (o : Ser) (n : Option Str) : WP (TProg.dumpWith p cu lf F s rec o n) := by
  have h1 := whole_propertyDump p
  have h2 := whole_compositeDump p F s h
  have h3 := whole_listDump F s h
  have h4 := whole_mapDump p lf F s h
  have h5 := whole_enumValue
  obtain ⟨k, t, l⟩ := o
  cases k with
  | prim q => exact h1 n q
  | enum _ => exact WP.autoNext (WP.bind (WP.quiet _) fun _ => WP.bind h5 fun _ => WP.pure _)
  | composite => exact WP.autoNext (WP.bind (WP.quiet _) fun _ => WP.ite (WP.pure _) (WP.bind (h2 _) fun _ => WP.pure _))
  | list => exact WP.autoNext (WP.bind (h3 _) fun _ => WP.pure _)
  | array => exact WP.autoNext (WP.bind (h3 _) fun _ => WP.pure _)
  | map =>
    cases n with
    | none => exact WP.bind (WP.dbg _ _ _) fun _ => WP.autoNext (WP.bind (h4 _) fun _ => WP.pure _)
    | some n => exact WP.bind (WP.dbg _ _ _) fun _ => WP.autoNext (WP.bind (h4 _) fun _ => WP.pure _)
  | custom _ => exact WP.quiet _
theorem whole_dump (p : Paths) (cu : Customs) (lf : Bool) (F : Factory) (s : Schema) (k : Nat) : ∀ i n, WP (TProg.dump p cu lf F s k i n) := by
  induction k with
  | zero => intro i n; exact WP.quiet _
  | succ k ih =>
    intro i n
    have h := whole_dumpWith p cu lf F s ih
    unfold TProg.dump; whole
theorem whole_dumpPayload (p : Paths) (cu : Customs) (lf : Bool) (F : Factory) (s : Schema) (i : Nat) : WP (TProg.dumpPayload p cu lf F s i) := by
  refine WP.of fun c => ?_
  have h := whole_dump p cu lf F s (c.fuel + 1)
  delta TProg.dumpPayload
  refine WP.«at» ?_ c
  whole
theorem whole_dumpContents (p : Paths) (names : Nat → Str) (cu : Customs) (lf : Bool) (F : Factory) (c : Cursor) :
    Whole (TProg.dumpContents p names cu lf F c).2 := by
  have h1 := (whole_readEnvelope p).«at» c
  delta TProg.dumpContents
  split
  · rename_i e; rw [e] at h1; exact h1
  · rename_i e; rw [e] at h1; exact h1
  · rename_i s d c' o1 e
    rw [e] at h1
    have h2 := (whole_process p names lf s).«at» F
    split
    · rename_i e; rw [e] at h2; exact h1.append h2
    · rename_i e; rw [e] at h2; exact h1.append h2
    · rename_i F' o2 e
      rw [e] at h2
      split
      · exact h1.append h2
      · exact (h1.append h2).append ((whole_dumpPayload p cu lf F' s _).«at» c')
theorem whole_inspectTold (p : Paths) (lf : Bool) (c : Cursor) : Whole (inspectTold p lf c).2 :=
  Whole.append (a := [installLine p]) (Whole.one (ends_traceLine _ _ _)) (whole_dumpContents _ _ _ _ _ _)

/-! ### A dump without line ends -/

theorem Whole.flatten {o : List Str} (h : Whole o) : o.flatten = [] ∨ EndsLine o.flatten := by
  induction o with
  | nil => exact .inl rfl
  | cons a o ih =>
    right
    rcases ih (fun s hs => h s (List.mem_cons_of_mem _ hs)) with e | ⟨t, e⟩
    · rw [List.flatten_cons, e, List.append_nil]; exact h a List.mem_cons_self
    · rw [List.flatten_cons, e]; exact ⟨a ++ t, by simp⟩

theorem one_append {a b : Str} (ha : OneLine a) (hb : OneLine b) : OneLine (a ++ b) := by
  intro h
  rcases List.mem_append.mp h with h | h
  · exact ha h
  · exact hb h

theorem one_commas : ∀ {l : List Str}, (∀ s ∈ l, OneLine s) → OneLine (commas l)
  | [], _ => by unfold OneLine; decide
  | [a], h => by simpa [commas, List.intercalate] using h a List.mem_cons_self
  | a :: b :: l, h => by
    have e : commas (a :: b :: l) = a ++ (", ".toList ++ commas (b :: l)) := by simp [commas, List.intercalate]
    rw [e]
    exact one_append (h a List.mem_cons_self) (one_append (by unfold OneLine; decide) (one_commas fun s hs => h s (List.mem_cons_of_mem _ hs)))

theorem one_numeric {s : Str} (h : ∀ c ∈ s, c ∈ numeric) : OneLine s := fun hm => absurd (h _ hm) (by decide +kernel)

/-- What stands there, if anything, has no line ends. -/
def Unbroken (n : Option Node) : Prop := ∀ m, n = some m → NoLineEnds m

theorem Unbroken.kids {n : Option Node} (h : Unbroken n) : ∀ k ∈ kidsOf n, Unbroken (some k) := by
  intro k hk m e x s hx hs
  cases e
  cases n with
  | none => cases hk
  | some n =>
    obtain ⟨a, ks⟩ := n
    exact h _ rfl x s (.deeper a ks k hk hx) hs

theorem plain_nth {ns : List Node} (h : ∀ k ∈ ns, Unbroken (some k)) (i : Nat) : Unbroken (nth ns i) := by
  intro m e
  exact h m (nth_mem e) m rfl

theorem Unbroken.string {n : Option Node} (h : Unbroken n) {s : Str} (e : valueOf n = some (.string s) ∨ valueOf n = some (.symbol s)) : OneLine s := by
  cases n with
  | none => rcases e with e | e <;> cases e
  | some n => exact h n rfl n s (.here n) (e.imp Option.some.inj Option.some.inj)

theorem Unbroken.text {n : Option Node} (h : Unbroken n) {s : Str} (e : textOf n = .ok s) : OneLine s := by
  unfold textOf at e
  split at e
  · rename_i t hv; cases e; exact h.string (.inl hv)
  · rename_i t hv; cases e; exact h.string (.inr hv)
  · cases e

theorem plain_described {n : Option Node} (h : Unbroken n) {ks : List Node} (e : describedParts n = .ok ks) : ∀ k ∈ ks, Unbroken (some k) := by
  unfold describedParts at e
  split at e
  · cases e; exact h.kids
  · cases e

theorem plain_list {n : Option Node} (h : Unbroken n) {ks : List Node} (e : listParts n = .ok ks) : ∀ k ∈ ks, Unbroken (some k) := by
  unfold listParts at e
  split at e
  · cases e; exact h.kids
  · cases e

theorem plain_body {ts : List TypeNotation} {n b : Option Node} (h : Unbroken n) (e : body ts n = .ok b) : Unbroken b := by
  unfold body at e
  obtain ⟨ks, hk, e⟩ := Res.bind_eq_ok.mp e
  obtain ⟨_, _, e⟩ := Res.bind_eq_ok.mp e
  obtain ⟨_, _, e⟩ := Res.bind_eq_ok.mp e
  cases e
  exact plain_nth (plain_described h hk) 1

theorem one_prim {p : PrimReader} {n : Option Node} (h : Unbroken n) {s : Str} (e : primText p n = .ok s) : OneLine s := by
  unfold primText at e
  split at e
  · cases e; exact one_numeric (numeric_int _)
  · cases e; exact one_numeric (numeric_int _)
  · cases e; exact one_numeric (numeric_double _)
  · cases e
    have hb : ∀ b, OneLine (boolText b) := by unfold OneLine; decide
    exact hb _
  · cases e
    exact one_append (one_append (by unfold OneLine; decide) (one_numeric (numeric_nat _))) (by unfold OneLine; decide)
  · cases e
  · split at e
    · rename_i t hv; cases e
      exact one_append (one_append (by unfold OneLine; decide) (h.string (.inl hv))) (by unfold OneLine; decide)
    · rename_i t hv; cases e
      exact one_append (one_append (by unfold OneLine; decide) (h.string (.inr hv))) (by unfold OneLine; decide)
    · cases e

theorem one_key {b : Bool} {n : Option Node} {s : Str} (e : keyText b n = .ok s) : OneLine s := by
  unfold keyText at e
  split at e
  · obtain ⟨ks, _, e⟩ := Res.bind_eq_ok.mp e
    split at e
    · cases e; unfold OneLine; decide
    · cases e
  · cases e

theorem one_enum {n : Option Node} (h : Unbroken n) {s : Str} (e : enumText n = .ok s) : OneLine s := by
  unfold enumText at e
  obtain ⟨ks, hk, e⟩ := Res.bind_eq_ok.mp e
  have hp := plain_described h hk
  split at e
  · split at e <;> cases e
  · obtain ⟨_, _, e⟩ := Res.bind_eq_ok.mp e
    exact (plain_nth (plain_nth hp 1).kids 0).text e

/-- Texts that have no line ends where there are none in the tree. -/
def OneTexts (texts : Texts) : Prop := ∀ b t n s, Unbroken n → texts b t n = .ok s → OneLine s

theorem one_under {texts : Texts} (h : OneTexts texts) {b : Bool} {r : Option Str} {n : Option Node} (hn : Unbroken n) {s : Str}
    (e : textUnder texts b r n = .ok s) : OneLine s := by
  unfold textUnder at e
  split at e
  · exact h _ _ _ _ hn e
  · split at e <;> cases e

theorem one_colon {a b : Str} (ha : OneLine a) (hb : OneLine b) : OneLine (colon a b) :=
  one_append (one_append ha (by unfold OneLine; decide)) hb
theorem one_braces {l : List Str} (h : ∀ s ∈ l, OneLine s) : OneLine (braces l) :=
  one_append (one_append (by unfold OneLine; decide) (one_commas h)) (by unfold OneLine; decide)
theorem one_brackets {l : List Str} (h : ∀ s ∈ l, OneLine s) : OneLine (brackets l) :=
  one_append (one_append (by unfold OneLine; decide) (one_commas h)) (by unfold OneLine; decide)

theorem map_ok {α β : Type} {f : α → β} {r : Res α} {b : β} (h : f <$> r = .ok b) : ∃ a, r = .ok a ∧ b = f a := by
  cases r with
  | ok a => exact ⟨a, rfl, by cases h; rfl⟩
  | throw m => cases h
  | ub m => cases h

theorem one_properties {ts : List TypeNotation} (hts : PlainNames ts) {texts : Texts} (h : OneTexts texts) {c : Composite} {n : Option Node}
    (hn : Unbroken n) {l : List Str} (e : propertyTexts ts texts c n = .ok l) : ∀ s ∈ l, OneLine s := by
  unfold propertyTexts at e
  obtain ⟨ks, hk, e⟩ := Res.bind_eq_ok.mp e
  obtain ⟨d, hd, e⟩ := Res.bind_eq_ok.mp e
  obtain ⟨u, hu, e⟩ := Res.bind_eq_ok.mp e
  split at e
  · cases e
  · rename_i c'
    split at e
    · obtain ⟨ns, hns, e⟩ := Res.bind_eq_ok.mp e
      intro s hs
      obtain ⟨x, hx, ex⟩ := all_mem _ _ e s hs
      obtain ⟨v, hv, rfl⟩ := map_ok ex
      refine one_colon ?_ (one_under h (plain_nth (plain_list (plain_nth (plain_described hn hk) 1) hns) _) hv)
      have hmem : .comp c' ∈ ts := by
        unfold typeWith at hu
        split at hu
        · rename_i w hw; cases hu; exact List.mem_of_find?_eq_some hw
        · cases hu
      have h1 := List.fst_mem_of_mem_zipIdx hx
      exact hts c' x.1.1 hmem (List.of_mem_zip h1).1
    · cases e

theorem one_elements {ts : List TypeNotation} {texts : Texts} (h : OneTexts texts) {r : Option Str} {n : Option Node}
    (hn : Unbroken n) {l : List Str} (e : elementTexts ts texts r n = .ok l) : ∀ s ∈ l, OneLine s := by
  unfold elementTexts at e
  obtain ⟨b, hb, e⟩ := Res.bind_eq_ok.mp e
  intro s hs
  obtain ⟨x, hx, ex⟩ := all_mem _ _ e s hs
  refine one_under h ?_ ex
  unfold listElements at hx
  split at hx
  · exact (plain_body hn hb).kids x hx
  · cases hx

theorem one_entries {lf : Bool} {ts : List TypeNotation} {texts : Texts} (h : OneTexts texts) {k v : Option Str} {n : Option Node}
    (hn : Unbroken n) {l : List Str} (e : entryTexts lf ts texts k v n = .ok l) : ∀ s ∈ l, OneLine s := by
  unfold entryTexts at e
  obtain ⟨b, hb, e⟩ := Res.bind_eq_ok.mp e
  have hp : ∀ i, Unbroken (nth (mapParts b) i) := by
    intro i
    refine plain_nth (fun x hx => ?_) i
    unfold mapParts at hx
    split at hx
    · exact (plain_body hn hb).kids x hx
    · cases hx
  intro s hs
  obtain ⟨x, hx, ex⟩ := all_mem _ _ e s hs
  split at ex
  · obtain ⟨a, ha, ex⟩ := Res.bind_eq_ok.mp ex
    obtain ⟨a', ha', ex⟩ := Res.bind_eq_ok.mp ex
    cases ex
    exact one_colon (one_under h (hp _) ha) (one_under h (hp _) ha')
  · obtain ⟨a, ha, ex⟩ := Res.bind_eq_ok.mp ex
    obtain ⟨a', ha', ex⟩ := Res.bind_eq_ok.mp ex
    cases ex
    exact one_colon (one_under h (hp _) ha') (one_under h (hp _) ha)

theorem one_textIn (lf : Bool) {ts : List TypeNotation} (hts : PlainNames ts) (T : Table) (depth : Nat) : OneTexts (textIn lf ts T depth) := by
  induction depth with
  | zero => intro b t n s _ e; cases e
  | succ depth ih =>
    intro b t n s hn e
    unfold textIn at e
    split at e
    · cases e
    · exact one_key e
    · exact one_prim hn e
    · split at e
      · cases e; unfold OneLine; decide
      · obtain ⟨l, hl, rfl⟩ := map_ok e
        exact one_braces (one_properties hts ih hn hl)
    · split at e
      · exact one_enum hn e
      · obtain ⟨l, hl, rfl⟩ := map_ok e
        exact one_brackets (one_elements ih hn hl)
      · obtain ⟨l, hl, rfl⟩ := map_ok e
        exact one_brackets (one_elements ih hn hl)
      · obtain ⟨l, hl, rfl⟩ := map_ok e
        exact one_braces (one_entries ih hn hl)

/-! ### Names without line ends -/

theorem string_plain {b : Bool} {m : Option Node} {n : Node} {s : Str} (hline : NoLineEnds n) (hm : ∀ k, m = some k → Inside k n)
    (h : stringAt b m = .ok s) : OneLine s := by
  cases m with
  | none => cases h
  | some m =>
    simp only [stringAt, valueOf, Option.map_some] at h
    split at h
    · next t e =>
      simp only [Res.ok.injEq] at h
      subst h
      simp only [Option.some.injEq] at e
      exact hline m t (hm m rfl) (.inl e)
    · split at h
      · simp only [Res.ok.injEq] at h; subst h; unfold OneLine; decide
      · cases h
    · cases h

/-- The names of the fields of a type have no line ends. -/
def UnbrokenType : TypeNotation → Prop
  | .comp c => ∀ f ∈ c.fields, OneLine f.name
  | .restr _ => True

/-- Likewise. -/
def UnbrokenElement : Element → Prop
  | .field f => OneLine f.name
  | .notation t => UnbrokenType t
  | .schema s => ∀ t ∈ s.types.flatten, UnbrokenType t
  | .envelope s _ => ∀ t ∈ s.types.flatten, UnbrokenType t
  | _ => True

theorem typesOf_plain {rec : Option Node → Res Element} : ∀ (ms : List Node) (ls r : List (List TypeNotation)),
    (∀ t ∈ ls.flatten, UnbrokenType t) → (∀ m ∈ ms, ∀ e, rec (some m) = .ok e → UnbrokenElement e) →
    typesOf rec ls ms = .ok r → ∀ t ∈ r.flatten, UnbrokenType t
  | [], ls, r, hl, _, h => by
    simp only [typesOf, Res.ok.injEq] at h
    subst h; exact hl
  | m :: ms, ls, r, hl, hr, h => by
    rw [typesOf] at h
    replace h := Res.bind_eq_ok.mp h
    obtain ⟨e, he, h⟩ := h
    replace h := Res.bind_eq_ok.mp h
    obtain ⟨t, ht, h⟩ := h
    replace h := Res.bind_eq_ok.mp h
    obtain ⟨ls', hi, h⟩ := h
    refine typesOf_plain ms ls' r ?_ (fun m' hm' => hr m' (List.mem_cons_of_mem _ hm')) h
    intro x hx
    rcases insert_mem hi x hx with rfl | hx
    · have := hr m List.mem_cons_self e he
      cases e <;> simp only [asKind, theType, reduceCtorEq, Res.ok.injEq] at ht
      subst ht; exact this
    · exact hl x hx

theorem elementOf_plain {n : Node} (hline : NoLineEnds n) {rec : Option Node → Res Element}
    (hrec : ∀ m, Inside m n → ∀ e, rec (some m) = .ok e → UnbrokenElement e) (hnone : ∀ e, rec none = .ok e → False)
    {id : Nat} {ps : List Node} (hps : ∀ p ∈ ps, Inside p n) {e : Element} (h : elementOf rec id ps = .ok e) :
    UnbrokenElement e := by
  have hnth : ∀ i k, nth ps i = some k → Inside k n := fun i k hk => hps k (nth_mem hk)
  unfold elementOf at h
  by_cases h22 : id = 22
  · rw [if_pos h22] at h; cases h
  rw [if_neg h22] at h
  by_cases h1 : id = cordaId 1
  · rw [if_pos h1] at h
    unfold envelopeOf at h
    replace h := Res.bind_eq_ok.mp h
    obtain ⟨_, -, h⟩ := h
    replace h := Res.bind_eq_ok.mp h
    obtain ⟨_, -, h⟩ := h
    replace h := Res.bind_eq_ok.mp h
    obtain ⟨x, hx, h⟩ := h
    replace h := Res.bind_eq_ok.mp h
    obtain ⟨s, hs, h⟩ := h
    simp only [Res.pure_eq, Res.ok.injEq] at h
    subst h
    have : UnbrokenElement x := by
      cases hn : nth ps 1 with
      | none => rw [hn] at hx; exact (hnone _ hx).elim
      | some k => rw [hn] at hx; exact hrec k (hnth 1 k hn) x hx
    cases x <;> simp only [asKind, theSchema, reduceCtorEq, Res.ok.injEq] at hs
    subst hs; exact this
  rw [if_neg h1] at h
  by_cases h2 : id = cordaId 2
  · rw [if_pos h2] at h
    unfold schemaOf at h
    replace h := Res.bind_eq_ok.mp h
    obtain ⟨ls, hl, h⟩ := h
    simp only [Res.pure_eq, Res.ok.injEq] at h
    subst h
    simp only [UnbrokenElement, Props.schema_make_types]
    refine typesOf_plain _ _ _ (by simp) ?_ hl
    intro m hm e he
    obtain ⟨p, hp, hm⟩ := List.mem_flatMap.mp hm
    exact hrec m (inside_trans (inside_kid hm) (hps p hp)) e he
  rw [if_neg h2] at h
  by_cases h3 : id = cordaId 3
  · rw [if_pos h3] at h
    replace h := Res.bind_eq_ok.mp h
    obtain ⟨_, -, h⟩ := h
    simp only [Res.pure_eq, Res.ok.injEq] at h
    subst h
    trivial
  rw [if_neg h3] at h
  by_cases h4 : id = cordaId 4
  · rw [if_pos h4] at h
    unfold fieldOf at h
    replace h := Res.bind_eq_ok.mp h
    obtain ⟨name, hname, h⟩ := h
    iterate 6
      replace h := Res.bind_eq_ok.mp h
      obtain ⟨_, -, h⟩ := h
    replace h := Res.bind_eq_ok.mp h
    obtain ⟨f, hf, h⟩ := h
    simp only [Res.pure_eq, Res.ok.injEq] at h
    subst h
    have := string_plain hline (hnth 0) hname
    rw [UnbrokenElement, field_make_name hf]
    exact this
  rw [if_neg h4] at h
  by_cases h5 : id = cordaId 5
  · rw [if_pos h5] at h
    unfold compositeOf at h
    iterate 4
      replace h := Res.bind_eq_ok.mp h
      obtain ⟨_, -, h⟩ := h
    replace h := Res.bind_eq_ok.mp h
    obtain ⟨fs, hfs, h⟩ := h
    simp only [Res.pure_eq, Res.ok.injEq] at h
    subst h
    intro f hf
    obtain ⟨m, hm, hr⟩ := all_mem _ _ hfs f hf
    replace hr := Res.bind_eq_ok.mp hr
    obtain ⟨x, hx, hr⟩ := hr
    have : UnbrokenElement x := by
      refine hrec m ?_ x hx
      cases hn : nth ps 4 with
      | none => rw [hn] at hm; cases hm
      | some k => rw [hn] at hm; exact inside_trans (inside_kid hm) (hnth 4 k hn)
    cases x <;> simp only [asKind, theField, reduceCtorEq, Res.ok.injEq] at hr
    subst hr; exact this
  rw [if_neg h5] at h
  by_cases h6 : id = cordaId 6
  · rw [if_pos h6] at h
    unfold restrictedOf at h
    iterate 7
      replace h := Res.bind_eq_ok.mp h
      obtain ⟨_, -, h⟩ := h
    simp only [Res.pure_eq, Res.ok.injEq] at h
    subst h
    trivial
  rw [if_neg h6] at h
  by_cases h7 : id = cordaId 7
  · rw [if_pos h7] at h
    replace h := Res.bind_eq_ok.mp h
    obtain ⟨_, -, h⟩ := h
    simp only [Res.pure_eq, Res.ok.injEq] at h
    subst h
    trivial
  rw [if_neg h7] at h
  split at h
  · simp only [Res.ok.injEq] at h; subst h; trivial
  · cases h

theorem elementIn_plain {n : Node} (hline : NoLineEnds n) : ∀ depth m, Inside m n → ∀ e, elementIn depth (some m) = .ok e → UnbrokenElement e
  | 0, _, _, _, h => by cases h
  | depth + 1, m, hm, e, h => by
    unfold elementIn at h
    replace h := Res.bind_eq_ok.mp h
    obtain ⟨ks, hk, h⟩ := h
    replace h := Res.bind_eq_ok.mp h
    obtain ⟨id, hid, h⟩ := h
    have hmk := described_of_parts hk
    refine elementOf_plain hline (elementIn_plain hline depth) ?_ ?_ h
    · intro e he
      cases depth with
      | zero => cases he
      | succ d => cases he
    · intro p hp
      cases hn : nth ks 1 with
      | none => rw [hn] at hp; cases hp
      | some b =>
        rw [hn] at hp
        refine inside_trans (inside_kid hp) (inside_trans (inside_nth (n := m) (i := 1) ?_) hm)
        rw [hmk]; exact hn

theorem envelopeFrom_plain {n : Node} (hline : NoLineEnds n) {s : Schema} {d : Str} (h : envelopeFrom n = .ok (s, d)) :
    PlainNames s.types.flatten := by
  unfold envelopeFrom at h
  split at h
  · replace h := Res.bind_eq_ok.mp h
    obtain ⟨e, he, h⟩ := h
    split at h
    · next s' o =>
      simp only [Res.ok.injEq, Prod.mk.injEq] at h
      obtain ⟨rfl, rfl⟩ := h
      have := elementOf_plain (n := n) hline (elementIn_plain hline _) (fun e he => by
        cases hh : n.height with
        | zero => rw [hh] at he; cases he
        | succ d => rw [hh] at he; cases he) (fun p hp => by
        cases hn : nth n.kids 1 with
        | none => rw [hn] at hp; cases hp
        | some b => rw [hn] at hp; exact inside_trans (inside_kid hp) (inside_nth hn)) he
      intro c f hc hf
      exact this _ hc f hf
    · cases h
  · cases h

/-! ### The data dumper -/

theorem numeric_float (b : Nat) : ∀ c ∈ floatStr b, c ∈ numeric := by
  rw [floatStr, ieeeStr]
  split
  · refine numeric_append (numeric_sign _) ?_
    split <;> decide +kernel
  · split <;> exact numeric_fixed6 _ _ _

theorem one_typeWord (t : PnType) : OneLine (typeWord t) := by
  unfold OneLine
  cases t <;> decide +kernel

theorem one_leaf {a : Atom} (h : ∀ s, a = .string s → OneLine s) : OneLine (leafText a) := by
  cases a with
  | int n => exact one_numeric (numeric_int n)
  | long n => exact one_numeric (numeric_int n)
  | uint n => exact one_numeric (numeric_nat n)
  | ulong n => exact one_numeric (numeric_nat n)
  | float b => exact one_numeric (numeric_float b)
  | double b => exact one_numeric (numeric_double b)
  | string s => exact h s rfl
  | bool b => unfold OneLine; cases b <;> decide +kernel
  | symbol s => exact (by unfold OneLine; decide +kernel : OneLine someSymbol)
  | null => exact one_typeWord .null
  | ubyte _ => exact one_typeWord .ubyte
  | byte _ => exact one_typeWord .byte
  | ushort _ => exact one_typeWord .ushort
  | short _ => exact one_typeWord .short
  | char _ => exact one_typeWord .char
  | timestamp _ => exact one_typeWord .timestamp
  | decimal32 _ => exact one_typeWord .decimal32
  | decimal64 _ => exact one_typeWord .decimal64
  | decimal128 _ => exact one_typeWord .decimal128
  | uuid _ => exact one_typeWord .uuid
  | binary _ => exact one_typeWord .binary
  | described => exact one_typeWord .described
  | array => exact one_typeWord .array
  | list => exact one_typeWord .list
  | map => exact one_typeWord .map

theorem all_ok_mem {α : Type} {rs : List (Res α)} {l : List α} (h : all rs = .ok l) : ∀ a ∈ l, .ok a ∈ rs := by
  intro a ha
  obtain ⟨r, hr, e⟩ := all_mem (f := id) rs l (by rwa [List.map_id]) a ha
  exact e ▸ hr

theorem kid_plain {a : Atom} {ks : List Node} (h : NoLineEnds (.mk a ks)) : ∀ k ∈ ks, NoLineEnds k :=
  fun k hk m s hm hs => h m s (.deeper a ks k hk hm) hs

/-- Shows no line ends. -/
def OneShowing (f : Showing) : Prop := ∀ t s, f t = .ok s → OneLine s

theorem one_showAt {fs : List Showing} (h : ∀ f ∈ fs, OneShowing f) {i : Nat} {t : PnType} {s : Str} (e : showAt fs i t = .ok s) : OneLine s := by
  unfold showAt at e
  split at e
  · rename_i f hf; exact h f (List.mem_of_getElem? hf) t s e
  · cases e; unfold OneLine; decide

theorem one_slipped {ns : List Node} {fs : List Showing} (h : ∀ f ∈ fs, OneShowing f) {l : List Str} (e : slippedTaken ns fs = .ok l) :
    ∀ s ∈ l, OneLine s := by
  unfold slippedTaken at e
  split at e
  · cases e; unfold OneLine; decide
  · intro s hs
    obtain ⟨i, _, ei⟩ := all_mem _ _ e s hs
    obtain ⟨k, hk, ei⟩ := Res.bind_eq_ok.mp ei
    obtain ⟨v, hv, ei⟩ := Res.bind_eq_ok.mp ei
    cases ei
    exact one_colon (one_showAt h hk) (one_showAt h hv)

mutual

theorem one_taken : ∀ (n : Node), NoLineEnds n → OneShowing (taken n)
  | .mk a ks, h, t, s, e => by
    have h1 := one_takenAll ks (kid_plain h)
    have h2 := one_takenParts ks (kid_plain h)
    rw [taken] at e
    split at e
    · split at e
      · obtain ⟨l, hl, rfl⟩ := map_ok e
        refine one_brackets ?_
        unfold elements
        split
        · unfold OneLine; decide
        · exact fun s hs => h1 _ (all_ok_mem hl s hs) s rfl
      · cases e
    · split at e
      · split at e
        · obtain ⟨l, hl, rfl⟩ := map_ok e
          exact one_brackets (one_slipped h2 hl)
        · cases e
      · split at e
        · obtain ⟨d, hd, e⟩ := Res.bind_eq_ok.mp e
          split at e
          · obtain ⟨x, hx, rfl⟩ := map_ok e
            refine one_colon (Unbroken.text (plain_nth (fun k hk m hm => ?_) 0) hd) (one_showAt h2 hx)
            cases hm; exact kid_plain h k hk
          · cases e
        · cases e
          exact one_leaf fun s hs => h _ s (.here _) (.inl hs)

theorem one_takenAll : ∀ (ns : List Node), (∀ k ∈ ns, NoLineEnds k) → ∀ r ∈ takenAll ns, ∀ s, r = .ok s → OneLine s
  | [], _, r, hr, _, _ => by cases hr
  | n :: ns, h, r, hr, s, e => by
    rw [takenAll] at hr
    rcases List.mem_cons.mp hr with rfl | hr
    · exact one_taken n (h n List.mem_cons_self) _ s e
    · exact one_takenAll ns (fun k hk => h k (List.mem_cons_of_mem _ hk)) r hr s e

theorem one_takenParts : ∀ (ns : List Node), (∀ k ∈ ns, NoLineEnds k) → ∀ f ∈ takenParts ns, OneShowing f
  | [], _, r, hr => by cases hr
  | n :: ns, h, r, hr => by
    rw [takenParts] at hr
    rcases List.mem_cons.mp hr with rfl | hr
    · exact one_taken n (h n List.mem_cons_self)
    · exact one_takenParts ns (fun k hk => h k (List.mem_cons_of_mem _ hk)) r hr

end

theorem one_dataText {n : Option Node} (h : Unbroken n) {s : Str} (e : dataText n = .ok s) : OneLine s := by
  unfold dataText at e
  split at e
  · split at e
    · obtain ⟨ps, hps, e⟩ := Res.bind_eq_ok.mp e
      unfold firstText at e
      obtain ⟨_, _, e⟩ := Res.bind_eq_ok.mp e
      split at e
      · rename_i p hp
        exact one_taken p (plain_nth (plain_list (plain_nth h.kids 1) hps) 0 p hp) _ s e
      · cases e; unfold OneLine; decide
    · cases e
  · cases e

end Corda
