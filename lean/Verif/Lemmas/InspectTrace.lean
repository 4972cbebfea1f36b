import Verif.Model.InspectTrace
import Verif.Lemmas.SchemaTrace

/-
Inspecting a blob: what remains when the prints are taken away.
-/

namespace Corda
open Prog

namespace Telling

theorem bind_def {α β : Type} (p : Telling α) (f : α → Telling β) : (p >>= f) = Telling.bind p f := rfl

@[simp] theorem res_bind {α β : Type} (p : Telling α) (f : α → Telling β) : (p >>= f).res = (p.res >>= fun a => (f a).res) := by
  rw [bind_def]
  rcases p with ⟨r, o⟩
  cases r <;> rfl

@[simp] theorem res_pure {α : Type} (a : α) : (pure a : Telling α).res = pure a := rfl
@[simp] theorem res_quiet {α : Type} (r : Res α) : (quiet r).res = r := rfl
@[simp] theorem res_dbg (f : Str) (l : Nat) (s : Str) : (dbg f l s).res = pure () := rfl

theorem unit_bind {β : Type} (f : Unit → Res β) : ((pure () : Res Unit) >>= f) = f () := rfl
theorem ok_bind {α β : Type} (a : α) (f : α → Res β) : ((pure a : Res α) >>= f) = f a := rfl

theorem res_ite {α : Type} (b : Prop) [Decidable b] (p q : Telling α) : (if b then p else q).res = if b then p.res else q.res := by
  split <;> rfl

theorem res_makeField (p : Paths) (n t : Str) (r : List Str) (d l : Str) (a b : Bool) :
    (makeField p n t r d l a b).res = Field.make n t r d l a b := by
  unfold makeField Field.make isPrimitive fieldBase restrictedBase fieldBase
  simp only [res_bind, res_dbg, res_pure, unit_bind, ok_bind, res_ite]
  congr 1
  cases r <;> simp only [res_bind, res_dbg, res_pure, unit_bind, ok_bind, res_ite, res_quiet]

theorem res_makeRestricted (p : Paths) (d n l : Str) (pr : List Str) (s : Str) (c : List Str) :
    (makeRestricted p d n l pr s c).res = Restricted.make d n l pr s c := by
  unfold makeRestricted
  simp only [res_bind, res_dbg, unit_bind, res_quiet]
  cases Restricted.make d n l pr s c with
  | ok r => rcases r with ⟨_, _, _, _, k⟩; cases k <;> rfl
  | throw => rfl
  | ub => rfl

theorem res_anyResolvedCR (p : Paths) (n : Str) (fs : List Field) : (anyResolvedCR p n fs).res = anyResolved n fs := by
  induction fs with
  | nil => rfl
  | cons f fs ih =>
    unfold anyResolvedCR anyResolved
    simp only [res_bind, res_dbg, res_pure, unit_bind, res_quiet, res_ite, ih]

theorem res_anyResolvedCC (p : Paths) (n : Str) (fs : List Field) : (anyResolvedCC p n fs).res = anyResolved n fs := by
  induction fs with
  | nil => rfl
  | cons f fs ih =>
    unfold anyResolvedCC anyResolved
    simp only [res_bind, res_dbg, res_pure, unit_bind, res_quiet, res_ite, ih]

theorem res_anyPart (p : Paths) (n : Str) (is : List Str) : (anyPart p n is).res = pure (is.contains n) := by
  induction is with
  | nil => rfl
  | cons i is ih =>
    unfold anyPart
    simp only [res_bind, res_dbg, res_pure, unit_bind, res_ite, ih]
    by_cases h : i = n
    · rw [if_pos h, h, List.contains_cons]; simp
    · rw [if_neg h, List.contains_cons]
      have : (n == i) = false := by simp; exact fun e => h e.symm
      rw [this]; simp

theorem res_anySub (p : Paths) (n : Str) (is : List Str) : (anySub p n is).res = pure (is.contains n) := by
  induction is with
  | nil => rfl
  | cons i is ih =>
    unfold anySub
    simp only [res_bind, res_dbg, res_pure, unit_bind, res_ite, ih]
    by_cases h : i = n
    · rw [if_pos h, h, List.contains_cons]; simp
    · rw [if_neg h, List.contains_cons]
      have : (n == i) = false := by simp; exact fun e => h e.symm
      rw [this]; simp

theorem res_anyDeep (p : Paths) (own n : Str) (fs : List Field) : (anyDeepT p own n fs).res = anyDeep n fs := by
  induction fs with
  | nil => rfl
  | cons f fs ih =>
    unfold anyDeepT anyDeep
    simp only [res_bind, res_dbg, res_pure, unit_bind, res_quiet, res_ite, ih, res_anySub, ok_bind]
    rfl

theorem res_dependsOn (p : Paths) (a b : TypeNotation) : (dependsOn p a b).res = a.dependsOn b := by
  cases a with
  | comp x =>
    cases b with
    | comp y =>
      unfold dependsOn compositeComposite TypeNotation.dependsOn Composite.rhsComposite
      simp only [res_bind, res_dbg, res_pure, unit_bind, res_ite, res_anyDeep, res_anyResolvedCC]
    | restr y => rfl
  | restr x =>
    cases b with
    | comp y =>
      unfold dependsOn compositeRestricted TypeNotation.dependsOn Composite.rhsRestricted
      simp only [res_bind, res_dbg, res_pure, unit_bind, res_ite, res_anyResolvedCR, res_anyPart, ok_bind]
    | restr y =>
      unfold dependsOn restrictedRestricted TypeNotation.dependsOn
      simp only [res_bind, res_dbg, unit_bind]
      rcases x with ⟨xn, _, _, _, xk⟩
      rcases y with ⟨yn, _, _, _, yk⟩
      cases xk <;> cases yk <;> (try rfl)
      simp only [res_bind, res_dbg, res_pure, unit_bind, res_ite, Restricted.rhsRestricted]
      split
      · rfl
      · split <;> rfl

theorem res_scanLevel (p : Paths) (x : TypeNotation) (here : Nat) (l : List TypeNotation) :
    ∀ cur, (scanLevel p x here cur l).res = scanLevelR TypeNotation.dependsOn x here cur l := by
  induction l with
  | nil => intro cur; rfl
  | cons j js ih =>
    intro cur
    unfold scanLevel scanLevelR
    simp only [res_bind, res_dbg, res_pure, unit_bind, res_ite, res_dependsOn, ih]

theorem res_findPos (p : Paths) (x : TypeNotation) (ls : List (List TypeNotation)) :
    ∀ here cur, (findPos p x here cur ls).res = findPosR TypeNotation.dependsOn x here cur ls := by
  induction ls with
  | nil => intro _ _; rfl
  | cons j js ih =>
    intro _ _
    unfold findPos findPosR
    simp only [res_bind, res_pure, res_ite, res_scanLevel, ih]

theorem res_shuffle (p : Paths) {rec : TypeNotation → List (List TypeNotation) → Telling (List (List TypeNotation))}
    {rec' : TypeNotation → List (List TypeNotation) → Res (List (List TypeNotation))} (h : ∀ x l, (rec x l).res = rec' x l)
    (x : TypeNotation) (es : List TypeNotation) :
    ∀ post, (shuffle p rec x es post).res = shuffleR rec' TypeNotation.dependsOn x es post := by
  induction es with
  | nil => intro _; rfl
  | cons e es ih =>
    intro post
    unfold shuffle shuffleR
    simp only [res_bind, res_pure, res_ite, res_dependsOn, ih, h]

theorem res_insGo (p : Paths) (fuel : Nat) : ∀ x tail, (insGo p fuel x tail).res = insGoR TypeNotation.dependsOn fuel x tail := by
  induction fuel with
  | zero => intro _ _; rfl
  | succ fuel ih =>
    intro x tail
    unfold insGo insGoR
    simp only [res_bind, res_dbg, unit_bind, res_findPos]
    congr 1
    funext q
    cases tail.drop q with
    | nil => rfl
    | cons lvl post => simp only [res_bind, res_pure, res_shuffle p ih]

theorem res_insertType (p : Paths) (ls : List (List TypeNotation)) (x : TypeNotation) :
    (insertType p ls x).res = insertR TypeNotation.dependsOn ls x := res_insGo p _ _ _

end Telling

namespace TProg

@[simp] theorem erase_tell {α : Type} (r : Telling α) : erase (tell r) = Prog.lift r.res := rfl

theorem erase_foldNextGo {σ : Type} {body : Nat → σ → TProg σ} {body' : σ → Prog σ} (h : ∀ i s, erase (body i s) = body' s) (n : Nat) :
    ∀ i s, erase (foldNextGo body n i s) = Prog.foldNextGo body' n s := by
  induction n with
  | zero => intro _ _; rfl
  | succ n ih =>
    intro i s
    unfold foldNextGo Prog.foldNextGo
    simp only [erase_bind, erase_quiet, erase_ite, h, ih, erase_pure]

theorem erase_foldNext {σ : Type} {body : Nat → σ → TProg σ} {body' : σ → Prog σ} (h : ∀ i s, erase (body i s) = body' s) (s : σ) :
    erase (foldNext body s) = Prog.foldNext body' s := by
  funext c
  exact congrFun (erase_foldNextGo h _ _ _) c

theorem erase_dbgData (f : Str) (l : Nat) (b : Str) : erase (dbgData f l b) = pure () := rfl

theorem erase_fieldBody (p : Paths) : erase (fieldBody p) = Prog.fieldBody := by
  unfold fieldBody Prog.fieldBody
  simp only [erase_bind, erase_quiet, erase_dbg, erase_tell, pure_bind', erase_pure, Telling.res_makeField]

theorem erase_fieldBuild (p : Paths) : erase (fieldBuild p) = Prog.fieldBuild := by
  unfold fieldBuild Prog.fieldBuild
  simp only [erase_bind, erase_quiet, erase_dbg, pure_bind', erase_autoEnter, erase_fieldBody]

theorem bind_pure' {α : Type} (q : Prog α) : (q >>= fun s => pure s) = q := by
  funext c
  rw [Prog.bind_def]
  rcases q c with ⟨r, c'⟩
  cases r <;> rfl

theorem bind_lift_pure {α : Type} (q : Prog α) : (q >>= fun s => (Prog.lift (.ok ()) >>= fun _ => pure s)) = q := bind_pure' q

theorem erase_objectBuild (p : Paths) : erase (objectBuild p) = Prog.objectBuild := rfl

theorem erase_nullBuild (p : Paths) (k l : Nat) (w : Str) : erase (nullBuild p k l w) = Prog.nullBuild k := by
  unfold nullBuild Prog.nullBuild
  simp only [erase_bind, erase_quiet, erase_dbgData, pure_bind', erase_pure]

section
variable (p : Paths) {rec : TProg Element} {rec' : Prog Element} (h : erase rec = rec')
include h

theorem erase_compositeBody : erase (compositeBody rec) = Prog.compositeBody rec' := by
  unfold compositeBody Prog.compositeBody
  simp only [erase_bind, erase_quiet, erase_listEnter, erase_whileNext, h, erase_pure]

theorem erase_compositeBuild : erase (compositeBuild p rec) = Prog.compositeBuild rec' := by
  unfold compositeBuild Prog.compositeBuild
  simp only [erase_bind, erase_quiet, erase_dbg, pure_bind', erase_autoEnter, erase_compositeBody h]

theorem erase_restrictedBody : erase (restrictedBody p rec) = Prog.restrictedBody rec' := by
  unfold restrictedBody Prog.restrictedBody Prog.stringList
  simp only [erase_bind, erase_quiet, erase_listEnter, erase_whileNext, h, erase_pure, erase_readText, erase_dbg, pure_bind', erase_dbgData,
    erase_tell, Telling.res_makeRestricted, bind_pure']

theorem erase_restrictedBuild : erase (restrictedBuild p rec) = Prog.restrictedBuild rec' := by
  unfold restrictedBuild Prog.restrictedBuild
  simp only [erase_bind, erase_quiet, erase_dbg, pure_bind', erase_autoEnter, erase_restrictedBody p h]

theorem erase_schemaStep (ls : List (List TypeNotation)) : erase (schemaStep p rec ls) = Prog.schemaStep rec' ls := by
  unfold schemaStep Prog.schemaStep
  simp only [erase_bind, erase_quiet, erase_tell, h, erase_pure, Telling.res_insertType]
  congr 1
  funext e
  congr 1
  funext t
  exact bind_lift_pure _

theorem erase_schemaBuild : erase (schemaBuild p rec) = Prog.schemaBuild rec' := by
  unfold schemaBuild Prog.schemaBuild
  simp only [erase_bind, erase_quiet, erase_dbg, pure_bind', erase_listEnter, erase_tell, erase_pure]
  congr 1
  funext _
  congr 1
  · congr 1
    funext n
    apply erase_foldNext
    intro i s
    simp only [erase_bind, erase_dbg, pure_bind', erase_listEnter]
    congr 1
    funext _
    apply erase_foldNext
    intro _ s
    exact erase_schemaStep p h s

theorem erase_envelopeBody : erase (envelopeBody rec) = Prog.envelopeBody rec' := by
  unfold envelopeBody Prog.envelopeBody
  simp only [erase_bind, erase_quiet, h, erase_pure]

theorem erase_envelopeBuild : erase (envelopeBuild p rec) = Prog.envelopeBuild rec' := by
  unfold envelopeBuild Prog.envelopeBuild
  simp only [erase_bind, erase_quiet, erase_dbg, pure_bind', erase_autoEnter, erase_envelopeBody h]

theorem erase_build (id : Nat) : erase (build p rec id) = Prog.build rec' id := by
  unfold build Prog.build
  simp only [erase_ite, erase_quiet, erase_envelopeBuild p h, erase_schemaBuild p h, erase_fieldBuild, erase_compositeBuild p h,
    erase_restrictedBuild p h, erase_objectBuild, erase_nullBuild]

theorem erase_dispatchBody : erase (dispatchBody p rec) = Prog.dispatchBody rec' := by
  unfold dispatchBody Prog.dispatchBody
  simp only [erase_bind, erase_quiet, erase_build p h]

end

theorem erase_dispatch (p : Paths) (n : Nat) : erase (dispatch p n) = Prog.dispatch n := by
  induction n with
  | zero => rfl
  | succ n ih =>
    unfold dispatch Prog.dispatch
    simp only [erase_bind, erase_quiet, erase_autoEnter, erase_dispatchBody p ih]

theorem erase_readEnvelope (p : Paths) (c : Cursor) : (readEnvelope p c).1 = Prog.readEnvelope c := by
  have h : ∀ n, erase (do
      let d ← quiet Prog.isDescribed
      if d then do
        let e ← autoEnter (do
          let id ← quiet (Prog.look Prog.getUlong)
          build p (dispatch p n) id)
        match e with
        | .envelope s o => pure (s, o)
        | _ => quiet (Prog.ub "null envelope")
      else quiet (Prog.ub "null envelope") : TProg (Schema × Str)) = (do
      let d ← isDescribed
      if d then do
        let e ← Prog.autoEnter (do
          let id ← look getUlong
          Prog.build (Prog.dispatch n) id)
        match e with
        | .envelope s o => pure (s, o)
        | _ => ub "null envelope"
      else ub "null envelope" : Prog (Schema × Str)) := by
    intro n
    simp only [erase_bind, erase_quiet, erase_ite, erase_autoEnter, erase_build p (erase_dispatch p n)]
    congr 1
    funext d
    congr 1
    congr 1
    funext e
    cases e <;> rfl
  exact congrFun (h c.fuel) c

end TProg

namespace TFProg

/-- The member without its prints. -/
def erase {α : Type} (p : TFProg α) : FProg α := fun F => (p F).1

theorem bind_def {α β : Type} (p : TFProg α) (f : α → TFProg β) (F : Factory) :
    (p >>= f) F = match p F with
      | ((.ok a, F'), out) => ((f a F').1, out ++ (f a F').2)
      | ((.throw m, F'), out) => ((.throw m, F'), out)
      | ((.ub w, F'), out) => ((.ub w, F'), out) := rfl

theorem fbind_def {α β : Type} (p : FProg α) (f : α → FProg β) (F : Factory) :
    (p >>= f) F = match p F with
      | (.ok a, F') => f a F'
      | (.throw m, F') => (.throw m, F')
      | (.ub w, F') => (.ub w, F') := rfl

@[simp] theorem erase_bind {α β : Type} (p : TFProg α) (f : α → TFProg β) : erase (p >>= f) = (erase p >>= fun a => erase (f a)) := by
  funext F
  unfold erase
  rw [bind_def, fbind_def]
  rcases p F with ⟨⟨r, F'⟩, out⟩
  cases r <;> rfl

@[simp] theorem erase_pure {α : Type} (a : α) : erase (pure a) = pure a := rfl
@[simp] theorem erase_quiet {α : Type} (p : FProg α) : erase (quiet p) = p := rfl
@[simp] theorem erase_dbg (p : Paths) (l : Nat) (s : Str) : erase (dbg p l s) = pure () := rfl
@[simp] theorem erase_tell {α : Type} (r : Telling α) : erase (tell r) = FProg.lift r.res := rfl

theorem erase_ite {α : Type} (b : Prop) [Decidable b] (p q : TFProg α) : erase (if b then p else q) = if b then erase p else erase q := by
  split <;> rfl

theorem pure_bind' {α β : Type} (a : α) (f : α → FProg β) : (pure a >>= f : FProg β) = f a := rfl
theorem lift_ok_bind {α β : Type} (a : α) (f : α → FProg β) : (FProg.lift (.ok a) >>= f : FProg β) = f a := rfl

theorem erase_computeIfAbsent (p : Paths) (names : Nat → Str) (k : Str) {f : TFProg Nat} {f' : FProg Nat} (h : erase f = f') :
    erase (computeIfAbsent p names k f) = FProg.computeIfAbsent k f' := by
  funext F
  show (computeIfAbsent p names k f F).1 = _
  unfold computeIfAbsent FProg.computeIfAbsent
  cases F.byType.lookup k with
  | some o => cases o <;> rfl
  | none =>
    have e : erase (do
        dbg p 50 ("ComputeIfAbsent \"".toList ++ k ++ "\" - missing".toList)
        let i ← f
        quiet (FProg.setType k (some i))
        let t ← typeOf i
        let n ← nameAt names i
        dbg p 52 ("                \"".toList ++ k ++ "\" - RTN: ".toList ++ n ++ " : ".toList ++ t.getD [])
        dbg p 56 (k ++ " =?= ".toList ++ t.getD [])
        if t = some k then pure i else quiet (FProg.ub "assert") : TFProg Nat) = (do
        let i ← f'
        FProg.setType k (some i)
        let t : Option Str ← fun F => (.ok (F.objs[i]?.map Ser.type), F)
        if t = some k then pure i else FProg.ub "assert" : FProg Nat) := by
      simp only [erase_bind, erase_quiet, erase_dbg, pure_bind', h, erase_ite, erase_pure]
      rfl
    exact congrFun e F

theorem erase_fieldReader (p : Paths) (names : Nat → Str) (n : Str) (r : Nat) (f : Field) :
    erase (fieldReader p names n r f) = FProg.fieldReader n r f := by
  unfold fieldReader FProg.fieldReader
  simp only [erase_bind, erase_quiet, erase_dbg, pure_bind']
  cases f.AMQPType <;>
    simp only [erase_bind, erase_quiet, erase_dbg, pure_bind', erase_ite, erase_pure, erase_computeIfAbsent p names _ (erase_quiet _)]

theorem erase_fieldReaders (p : Paths) (names : Nat → Str) (n : Str) (r : Nat) (fs : List Field) :
    erase (fieldReaders p names n r fs) = FProg.fieldReaders n r fs := by
  induction fs with
  | nil => rfl
  | cons f fs ih =>
    unfold fieldReaders FProg.fieldReaders
    simp only [erase_bind, erase_fieldReader]
    congr 1
    funext o
    cases o with
    | none => rfl
    | some i => simp only [erase_bind, ih, erase_pure]

theorem erase_processComposite (p : Paths) (names : Nat → Str) (c : Composite) :
    erase (processComposite p names c) = FProg.processComposite c := by
  unfold processComposite FProg.processComposite
  simp only [erase_bind, erase_quiet, erase_dbg, pure_bind', erase_fieldReaders, erase_pure]

theorem erase_fetchReader (p : Paths) (names : Nat → Str) (t : Str) : erase (fetchReader p names t) = FProg.fetchReader t := by
  unfold fetchReader FProg.fetchReader Telling.isPrimitive
  simp only [erase_bind, erase_quiet, erase_dbg, pure_bind', erase_tell, Telling.res_bind, Telling.res_dbg, Telling.unit_bind,
    Telling.res_pure, erase_ite, erase_computeIfAbsent p names _ (erase_quiet _), erase_pure, Res.pure_eq, Res.bind_eq, Res.bind, lift_ok_bind]
  by_cases h : typeIsPrimitive t = true
  · rw [if_pos h, if_pos h]
    congr 1
    funext o
    cases o <;> rfl
  · rw [if_neg h, if_neg h]
    congr 1
    funext o
    cases o <;> rfl

theorem erase_processRestricted (p : Paths) (names : Nat → Str) (lf : Bool) (r : Restricted) :
    erase (processRestricted p names lf r) = FProg.processRestricted lf r := by
  unfold processRestricted FProg.processRestricted
  simp only [erase_bind, erase_dbg, pure_bind']
  cases r.kind <;> simp only [erase_bind, erase_dbg, pure_bind', erase_fetchReader, erase_quiet, erase_ite]

theorem erase_processType (p : Paths) (names : Nat → Str) (lf : Bool) (t : TypeNotation) :
    erase (processType p names lf t) = FProg.processType lf t := by
  unfold processType FProg.processType
  simp only [erase_bind, erase_dbg, pure_bind']
  apply erase_computeIfAbsent
  cases t
  · exact erase_processComposite p names _
  · exact erase_processRestricted p names lf _

theorem erase_processAll (p : Paths) (names : Nat → Str) (lf : Bool) (ts : List TypeNotation) :
    erase (processAll p names lf ts) = FProg.processAll lf ts := by
  induction ts with
  | nil => rfl
  | cons t ts ih =>
    unfold processAll FProg.processAll processOne FProg.processOne
    simp only [erase_bind, erase_quiet, erase_processType, ih]

theorem erase_process (p : Paths) (names : Nat → Str) (lf : Bool) (s : Schema) (F : Factory) :
    (process p names lf s F).1 = FProg.process lf s F := by
  have e : erase (process p names lf s) = FProg.process lf s := by
    unfold process FProg.process
    simp only [erase_bind, erase_dbg, pure_bind', erase_processAll]
  exact congrFun e F

end TFProg

namespace TProg

theorem erase_propertyDump (p : Paths) (n : Option Str) (q : PrimReader) : erase (propertyDump p n q) = (do
    let t ← propertyText q
    pure (text n t)) := by
  cases q
  case int =>
    cases n <;> (unfold propertyDump; simp only [erase_bind, erase_quiet, erase_dbg, pure_bind', erase_pure])
  case string =>
    have e : ∀ (f : Str → Val), (propertyText .string >>= fun t => pure (f t)) = (Prog.readString >>= fun s => pure (f ('"' :: s ++ ['"']))) := by
      intro f
      funext c
      show ((Prog.readString >>= fun s => pure ('"' :: s ++ ['"'])) >>= fun t => pure (f t)) c = _
      rw [Prog.bind_def, Prog.bind_def, Prog.bind_def]
      rcases Prog.readString false c with ⟨r, c'⟩
      cases r <;> rfl
    rw [e]
    cases n <;> (unfold propertyDump; simp only [erase_bind, erase_readText, erase_dbg, pure_bind', erase_pure])
  all_goals (unfold propertyDump; simp only [erase_bind, erase_quiet, erase_pure])

theorem erase_checkList (p : Paths) : erase (checkList p) = Prog.attestList := erase_attestIsList ⟨p .wrapper, [], [], [], [], []⟩

section
variable (p : Paths) (F : Factory) (s : Schema) {rec : Nat → Option Str → TProg Val} {rec' : Nat → Option Str → Prog Val}
  (h : ∀ i n, erase (rec i n) = rec' i n)
include h

theorem erase_useReader (i : Nat) : erase (useReader F rec i) = Prog.useReader F rec' i := by
  unfold useReader Prog.useReader
  cases F.lock i with
  | none => rfl
  | some _ => exact h i none

theorem erase_dumpFields (fs : List (Field × Nat)) : erase (dumpFields p F rec fs) = Prog.dumpFields F rec' fs := by
  induction fs with
  | nil => rfl
  | cons f fs ih =>
    rcases f with ⟨f, i⟩
    unfold dumpFields Prog.dumpFields
    cases F.lock i with
    | none => rfl
    | some _ => simp only [erase_bind, erase_dbg, pure_bind', h, ih, erase_pure]

theorem erase_compositeDump (subs : List Nat) : erase (compositeDump p F s rec subs) = Prog.compositeDump F s rec' subs := by
  unfold compositeDump Prog.compositeDump
  simp only [erase_bind, erase_dbg, pure_bind', erase_quiet, erase_autoEnter]
  congr 1
  funext _
  congr 1
  congr 1
  funext d
  congr 1
  funext t
  cases t with
  | restr _ => rfl
  | comp c => simp only [erase_ite, erase_bind, erase_quiet, erase_autoEnter, erase_dumpFields p F h, erase_checkList]

theorem erase_listDump (subs : List Nat) : erase (listDump F s rec subs) = Prog.listDump F s rec' subs := by
  unfold listDump Prog.listDump
  simp only [erase_bind, erase_quiet, erase_autoEnter, erase_readText, erase_listEnter]
  cases subs with
  | nil => rfl
  | cons i _ => simp only [erase_times, erase_useReader F h]

theorem erase_mapDump (lf : Bool) (subs : List Nat) : erase (mapDump p lf F s rec subs) = Prog.mapDump lf F s rec' subs := by
  unfold mapDump Prog.mapDump
  simp only [erase_bind, erase_quiet, erase_autoEnter, erase_readText, erase_autoMapEnter, erase_dbg, pure_bind']
  congr 1
  funext _
  congr 1
  congr 1
  funext d
  congr 1
  funext t
  congr 1
  funext n
  rcases subs with _ | ⟨k, _ | ⟨v, _ | ⟨w, l⟩⟩⟩
  · rfl
  · rfl
  · simp only [erase_times]
    congr 1
    unfold mapEntry Prog.mapEntry
    simp only [erase_ite, erase_bind, erase_useReader F h, erase_pure]
  · rfl

end

theorem erase_enumValue : erase enumValue = Prog.enumValue := by
  unfold enumValue Prog.enumValue
  simp only [erase_bind, erase_quiet, erase_autoEnter, erase_ite, erase_readText, erase_listEnter]

theorem erase_dumpWith (p : Paths) (cu : Customs) (lf : Bool) (F : Factory) (s : Schema) {rec : Nat → Option Str → TProg Val}
    {rec' : Nat → Option Str → Prog Val} (h : ∀ i n, erase (rec i n) = rec' i n) (o : Ser) (n : Option Str) :
    erase (dumpWith p cu lf F s rec o n) = Prog.dumpWith cu lf F s rec' o n := by
  unfold dumpWith Prog.dumpWith
  cases o.kind with
  | prim q => exact erase_propertyDump p n q
  | composite =>
    simp only [erase_autoNext, erase_bind, erase_quiet, erase_ite, erase_pure, erase_compositeDump p F s h]
    rfl
  | list =>
    simp only [erase_autoNext, erase_bind, erase_pure, erase_listDump F s h]
    rfl
  | array =>
    simp only [erase_autoNext, erase_bind, erase_pure, erase_listDump F s h]
    rfl
  | map => cases n <;> simp only [erase_autoNext, erase_bind, erase_dbg, pure_bind', erase_pure, erase_mapDump p F s h]
  | enum _ => simp only [erase_autoNext, erase_bind, erase_quiet, erase_pure, erase_enumValue]
  | custom k => rfl

theorem erase_dump (p : Paths) (cu : Customs) (lf : Bool) (F : Factory) (s : Schema) (fuel : Nat) :
    ∀ i n, erase (dump p cu lf F s fuel i n) = Prog.dump cu lf F s fuel i n := by
  induction fuel with
  | zero => intro _ _; rfl
  | succ fuel ih =>
    intro i n
    unfold dump Prog.dump
    cases F.objs[i]? with
    | none => rfl
    | some o => exact erase_dumpWith p cu lf F s ih o n

theorem erase_dumpPayload (p : Paths) (cu : Customs) (lf : Bool) (F : Factory) (s : Schema) (i : Nat) (c : Cursor) :
    (dumpPayload p cu lf F s i c).1 = Prog.dumpPayload cu lf F s i c := by
  have e : ∀ k, erase (autoEnter (do
      checkList p
      let n ← quiet (Prog.look Cursor.getList)
      if n = 3 then
        autoEnter (do
          let v ← dump p cu lf F s k i (some Prog.parsedName)
          pure (v.dump ++ mapClose))
      else quiet (Prog.ub "assert")) true : TProg Str) = (Prog.autoEnter (do
      Prog.attestList
      let n ← look Cursor.getList
      if n = 3 then
        Prog.autoEnter (do
          let v ← Prog.dump cu lf F s k i (some parsedName)
          pure (v.dump ++ mapClose))
      else ub "assert") true : Prog Str) := by
    intro k
    simp only [erase_autoEnter, erase_bind, erase_quiet, erase_ite, erase_pure, erase_dump, erase_checkList]
  exact congrFun (e (c.fuel + 1)) c

theorem erase_dumpContents (p : Paths) (names : Nat → Str) (cu : Customs) (lf : Bool) (F : Factory) (c : Cursor) :
    (dumpContents p names cu lf F c).1 = Prog.dumpContents cu lf F c := by
  unfold dumpContents Prog.dumpContents
  rw [← erase_readEnvelope p c]
  rcases readEnvelope p c with ⟨⟨r, c'⟩, o1⟩
  cases r with
  | throw _ => rfl
  | ub _ => rfl
  | ok sd =>
    rcases sd with ⟨s, d⟩
    simp only
    rw [← TFProg.erase_process p names lf s F]
    rcases TFProg.process p names lf s F with ⟨⟨r, F'⟩, o2⟩
    cases r with
    | throw _ => rfl
    | ub _ => rfl
    | ok _ =>
      simp only
      cases F'.findDesc d with
      | none => rfl
      | some i => simp only [erase_dumpPayload]

end TProg

theorem inspectTold_fst (p : Paths) (lf : Bool) (c : Cursor) : (inspectTold p lf c).1 = (inspect lf c).1 := by
  unfold inspectTold inspect
  simp only [TProg.erase_dumpContents]

theorem loadAndInspect_fst (p : Paths) (lf : Bool) (sys : System) (path : Str) :
    (loadAndInspect p lf sys path).1 = loadAndDump { ignoreHeader := true } sys path fun c => (inspect lf c).1 := by
  unfold loadAndInspect loadAndDump
  cases CordaBytes.load { ignoreHeader := true } (sys.file path) with
  | throw _ => rfl
  | ub _ => rfl
  | ok cb =>
    simp only [Res.bind_eq, Res.bind]
    by_cases he : cb.encoding = 0
    · rw [if_pos he, if_pos he]
      cases AMQPBlob.make sys cb with
      | throw _ => rfl
      | ub _ => rfl
      | ok c =>
        simp only
        rw [← inspectTold_fst p lf c]
        rcases inspectTold p lf c with ⟨r, o⟩
        cases r <;> rfl
    · rw [if_neg he, if_neg he]
      rfl

/-- The trace changes nothing: the blob inspector ends as it does without it. -/
theorem blobInspectorOutput_fst (p : Paths) (lf : Bool) (sys : System) (args : List Str) :
    (blobInspectorOutput p lf sys args).1 = blobInspector lf sys args := by
  unfold blobInspectorOutput blobInspector
  rcases args with _ | ⟨path, _ | ⟨_, _⟩⟩
  · rfl
  · simp only
    cases sys.file path with
    | none => rfl
    | some _ => simp only [loadAndInspect_fst]
  · rfl

end Corda
