import Verif.Lemmas.InspectTrace
import Verif.Lemmas.Descriptors
import Verif.Lemmas.Meaning

/-
What reading a schema prints depends on the tree of the schema alone.
-/

namespace Corda
open TProg

/-- The program stays in its level and neither its result nor what it prints takes notice of what is above. -/
def ScopedTAt {α : Type} (p : TProg α) (c : Cursor) : Prop := ScopedAt (erase p) c ∧ ∀ u, (p (c.under u)).2 = (p c).2

/-- From every position. -/
def ScopedT {α : Type} (p : TProg α) : Prop := ∀ c, ScopedTAt p c

/-- From every position on a node. -/
def ScopedTOn {α : Type} (p : TProg α) : Prop := ∀ c, c.cur.isSome = true → ScopedTAt p c

theorem ScopedT.on {α : Type} {p : TProg α} (h : ScopedT p) : ScopedTOn p := fun c _ => h c
theorem ScopedT.erased {α : Type} {p : TProg α} (h : ScopedT p) : Scoped (erase p) := fun c => (h c).1
theorem ScopedTOn.erased {α : Type} {p : TProg α} (h : ScopedTOn p) : ScopedOn (erase p) := fun c hc => (h c hc).1

theorem scopedT_quiet {α : Type} {p : Prog α} (h : Scoped p) : ScopedT (quiet p) := fun c => ⟨h c, fun _ => rfl⟩
theorem scopedTOn_quiet {α : Type} {p : Prog α} (h : ScopedOn p) : ScopedTOn (quiet p) := fun c hc => ⟨h c hc, fun _ => rfl⟩
theorem scopedT_pure {α : Type} (a : α) : ScopedT (pure a : TProg α) := fun c => ⟨scoped_pure a c, fun _ => rfl⟩
theorem scopedT_dbg (f : Str) (l : Nat) (s : Str) : ScopedT (dbg f l s) := fun c => ⟨scoped_pure () c, fun _ => rfl⟩
theorem scopedT_print (s : Str) : ScopedT (print s) := fun c => ⟨scoped_pure () c, fun _ => rfl⟩
theorem scopedT_tell {α : Type} (r : Telling α) : ScopedT (tell r) := fun c => ⟨scoped_lift r.res c, fun _ => rfl⟩

theorem scopedTAt_bind {α β : Type} {p : TProg α} {f : α → TProg β} {c : Cursor} (hp : ScopedTAt p c)
    (hf : ∀ a, (p c).1.1 = .ok a → ScopedTAt (f a) (p c).1.2) : ScopedTAt (p >>= f) c := by
  refine ⟨by rw [erase_bind]; exact scopedAt_bind hp.1 fun a ha => (hf a ha).1, fun u => ?_⟩
  have h1 := hp.1.2 u
  have h2 := hp.2 u
  rw [TProg.bind_def, TProg.bind_def]
  unfold erase at h1
  rcases hc : p c with ⟨⟨r, c'⟩, out⟩
  rcases hc' : p (c.under u) with ⟨⟨r', c2⟩, out'⟩
  rw [hc, hc'] at h1 h2
  rw [hc] at hf
  simp only [Prod.mk.injEq] at h1
  obtain ⟨rfl, rfl⟩ := h1
  simp only at h2
  subst h2
  cases r' with
  | ok a => simp only [(hf a rfl).2 u]
  | throw _ => rfl
  | ub _ => rfl

theorem scopedT_bind {α β : Type} {p : TProg α} {f : α → TProg β} (hp : ScopedT p) (hf : ∀ a, ScopedT (f a)) : ScopedT (p >>= f) :=
  fun c => scopedTAt_bind (hp c) fun a _ => hf a _

theorem scopedTOn_bind {α β : Type} {p : TProg α} {f : α → TProg β} (hp : ScopedTOn p) (hf : ∀ a, ScopedTOn (f a)) :
    ScopedTOn (p >>= f) :=
  fun c hs => scopedTAt_bind (hp c hs) fun a _ => hf a _ ((hp c hs).1.1.2.2 hs)

theorem scopedT_guard_bind {α β : Type} {p : TProg α} {f : α → TProg β} (hp : ScopedT p) (hg : Guard (erase p)) (hf : ∀ a, ScopedTOn (f a)) :
    ScopedT (p >>= f) :=
  fun c => scopedTAt_bind (hp c) fun a h => hf a _ (hg c a h)

theorem scopedT_ite {α : Type} {b : Prop} [Decidable b] {p q : TProg α} (hp : ScopedT p) (hq : ScopedT q) :
    ScopedT (if b then p else q) := by split <;> assumption

theorem scopedT_dbgData (f : Str) (l : Nat) (s : Str) : ScopedT (dbgData f l s) :=
  scopedT_bind (scopedT_quiet (scoped_look _)) fun _ => scopedT_dbg _ _ _

theorem scopedT_readText (b : Bool) : ScopedT (readText b) :=
  scopedT_bind (scopedT_print _) fun _ => scopedT_quiet (scoped_readString b)

theorem scopedTOn_autoEnter {α : Type} {p : TProg α} {nx : Bool} (hp : ScopedT p) : ScopedTOn (autoEnter p nx) := by
  intro c hc
  refine ⟨by rw [erase_autoEnter]; exact scopedOn_autoEnter hp.erased c hc, fun u => ?_⟩
  obtain ⟨u', hu⟩ := Cursor.enter_under hc u
  unfold autoEnter scope
  cases nx <;> simp only [hu, Cursor.next_under, (hp _).2, if_true, Bool.false_eq_true, if_false]

theorem scopedTOn_listEnter {α : Type} {p : Nat → TProg α} {nx : Bool} (hp : ∀ n, ScopedT (p n)) : ScopedTOn (listEnter p nx) := by
  intro c hc
  refine ⟨by rw [erase_listEnter]; exact scopedOn_autoListEnter (fun n => (hp n).erased) c hc, fun u => ?_⟩
  obtain ⟨u', hu⟩ := Cursor.enter_under hc u
  unfold listEnter scope
  cases nx <;> simp only [hu, Cursor.next_under, (hp _ _).2, if_true, Bool.false_eq_true, if_false] <;> rfl

theorem scopedT_next_bind {α : Type} {f : Bool → TProg α} (h1 : ScopedTOn (f true)) (h2 : ScopedT (f false)) :
    ScopedT (quiet Prog.next >>= f) := by
  intro c
  refine scopedTAt_bind (scopedT_quiet scoped_next c) fun a ha => ?_
  simp only [quiet, Prog.next, Res.ok.injEq] at ha ⊢
  cases a
  · exact h2 _
  · exact h1 _ (c.next_some_of_true ha)

theorem scopedT_whileNext {α : Type} {p : TProg α} (hp : ScopedTOn p) : ScopedT (whileNext p) := by
  have h : ∀ n, ScopedT (whileNextGo p n) := by
    intro n
    induction n with
    | zero => exact scopedT_quiet (scoped_ub _)
    | succ n ih =>
      exact scopedT_next_bind (scopedTOn_bind hp fun a => (scopedT_bind ih fun as => scopedT_pure _).on) (scopedT_pure _)
  exact fun c => ⟨⟨(h _ c).1.1, fun u => (h _ c).1.2 u⟩, fun u => (h _ c).2 u⟩

theorem scopedT_foldNext {σ : Type} {p : Nat → σ → TProg σ} (hp : ∀ i s, ScopedTOn (p i s)) (s : σ) : ScopedT (foldNext p s) := by
  have h : ∀ n i s, ScopedT (foldNextGo p n i s) := by
    intro n
    induction n with
    | zero => exact fun _ _ => scopedT_quiet (scoped_ub _)
    | succ n ih => exact fun i s => scopedT_next_bind (scopedTOn_bind (hp i s) fun a => (ih _ a).on) (scopedT_pure _)
  exact fun c => ⟨⟨(h _ _ _ c).1.1, fun u => (h _ _ _ c).1.2 u⟩, fun u => (h _ _ _ c).2 u⟩

/-! ### The readers of the schema -/

theorem scopedT_fieldBody (p : Paths) : ScopedT (fieldBody p) :=
  scopedT_guard_bind (scopedT_quiet (scoped_getString _)) (guard_getString _) fun _ => scopedTOn_bind (scopedT_dbg _ _ _).on fun _ =>
  scopedTOn_bind (scopedT_quiet scoped_next).on fun _ => scopedTOn_bind (scopedT_quiet (scoped_getString _)).on fun _ =>
  scopedTOn_bind (scopedT_dbg _ _ _).on fun _ =>
  scopedTOn_bind (scopedT_quiet scoped_next).on fun _ => scopedTOn_bind (scopedTOn_quiet scopedOn_stringList) fun _ =>
  (scopedT_bind (scopedT_quiet scoped_next) fun _ => scopedT_bind (scopedT_quiet (scoped_getString _)) fun _ =>
   scopedT_bind (scopedT_quiet scoped_next) fun _ => scopedT_bind (scopedT_quiet (scoped_getString _)) fun _ =>
   scopedT_bind (scopedT_quiet scoped_next) fun _ => scopedT_bind (scopedT_quiet scoped_getBoolean) fun _ =>
   scopedT_bind (scopedT_quiet scoped_next) fun _ => scopedT_bind (scopedT_quiet scoped_getBoolean) fun _ =>
   scopedT_bind (scopedT_tell _) fun _ => scopedT_pure _).on

theorem scopedT_validated {α : Type} {p : TProg α} (k : Nat) (hp : ScopedT p) : ScopedT (do quiet (Prog.validateAndNext k); autoEnter p) :=
  scopedT_guard_bind (scopedT_quiet (scoped_validateAndNext k)) (guard_validateAndNext k) fun _ => scopedTOn_autoEnter hp

theorem scopedT_compositeBody {rec : TProg Element} (hr : ScopedT rec) : ScopedT (compositeBody rec) :=
  scopedT_guard_bind (scopedT_quiet (scoped_getString _)) (guard_getString _) fun _ =>
  scopedTOn_bind (scopedT_quiet scoped_next).on fun _ => scopedTOn_bind (scopedT_quiet (scoped_getString _)).on fun _ =>
  scopedTOn_bind (scopedT_quiet scoped_next).on fun _ => scopedTOn_bind (scopedTOn_quiet scopedOn_stringList) fun _ =>
  scopedTOn_bind (scopedT_quiet scoped_next).on fun _ => scopedTOn_bind hr.on fun d =>
  scopedTOn_bind (scopedT_quiet (scoped_asDescriptor d)).on fun _ => scopedTOn_bind (scopedT_quiet scoped_next).on fun _ =>
  scopedTOn_bind (scopedTOn_listEnter fun _ => scopedT_whileNext
    (scopedTOn_bind hr.on fun e => (scopedT_quiet (scoped_asField e)).on)) fun _ => (scopedT_pure _).on

theorem guard_readText (b : Bool) : Guard (erase (readText b)) := guard_readString b

theorem scopedT_restrictedBody (p : Paths) {rec : TProg Element} (hr : ScopedT rec) : ScopedT (restrictedBody p rec) :=
  scopedT_guard_bind (scopedT_readText _) (guard_readText _) fun _ =>
  scopedTOn_bind (scopedT_readText _).on fun _ => scopedTOn_bind (scopedT_dbg _ _ _).on fun _ =>
  scopedTOn_bind (scopedTOn_listEnter fun _ => scopedT_whileNext (scopedT_bind (scopedT_quiet (scoped_getString _)) fun _ =>
    scopedT_bind (scopedT_dbg _ _ _) fun _ => scopedT_pure _).on) fun _ =>
  scopedTOn_bind (scopedT_quiet scoped_next).on fun _ => scopedTOn_bind (scopedT_readText _).on fun _ =>
  scopedTOn_bind (scopedT_dbg _ _ _).on fun _ => scopedTOn_bind hr.on fun d =>
  scopedTOn_bind (scopedT_quiet (scoped_asDescriptor d)).on fun _ => scopedTOn_bind (scopedT_quiet scoped_next).on fun _ =>
  scopedTOn_bind (scopedT_dbgData _ _ _).on fun _ =>
  scopedTOn_bind (scopedTOn_listEnter fun _ => scopedT_whileNext
    (scopedTOn_bind hr.on fun e => scopedTOn_bind (scopedT_quiet (scoped_asChoice e)).on fun _ =>
      scopedTOn_bind (scopedT_dbg _ _ _).on fun _ => (scopedT_pure _).on)) fun _ =>
  scopedTOn_bind (scopedT_dbgData _ _ _).on fun _ => (scopedT_bind (scopedT_tell _) fun _ => scopedT_pure _).on

theorem scopedTOn_schemaStep (p : Paths) {rec : TProg Element} (hr : ScopedT rec) (ls : List (List TypeNotation)) :
    ScopedTOn (schemaStep p rec ls) :=
  scopedTOn_bind hr.on fun e => scopedTOn_bind (scopedT_quiet (scoped_asNotation e)).on fun _ =>
    (scopedT_bind (scopedT_tell _) fun _ => scopedT_bind (scopedT_tell _) fun _ => scopedT_pure _).on

theorem scopedT_schemaBuild (p : Paths) {rec : TProg Element} (hr : ScopedT rec) : ScopedT (schemaBuild p rec) :=
  scopedT_bind (scopedT_dbg _ _ _) fun _ =>
  scopedT_guard_bind (scopedT_quiet (scoped_validateAndNext _)) (guard_validateAndNext _) fun _ =>
  scopedTOn_bind (scopedTOn_listEnter fun _ => scopedT_foldNext (fun _ ls =>
    scopedTOn_bind (scopedT_dbg _ _ _).on fun _ =>
      scopedTOn_listEnter fun _ => scopedT_foldNext (fun _ ls => scopedTOn_schemaStep p hr ls) ls) _)
    fun _ => (scopedT_bind (scopedT_tell _) fun _ => scopedT_pure _).on

theorem scopedT_envelopeBody {rec : TProg Element} (hr : ScopedT rec) : ScopedT (envelopeBody rec) :=
  scopedT_bind (scopedT_quiet scoped_consumeBlob) fun _ => scopedT_bind (scopedT_quiet scoped_next) fun _ => scopedT_bind hr fun e =>
  scopedT_bind (scopedT_quiet (scoped_asSchema e)) fun _ => scopedT_bind (scopedT_quiet scoped_next) fun _ => scopedT_pure _

theorem scopedT_build (p : Paths) {rec : TProg Element} (hr : ScopedT rec) (id : Nat) : ScopedT (build p rec id) := by
  have hn : ∀ k l w, ScopedT (nullBuild p k l w) := fun k l w =>
    scopedT_bind (scopedT_quiet (scoped_validateAndNext k)) fun _ => scopedT_bind (scopedT_dbgData _ _ _) fun _ => scopedT_pure _
  have hd : ∀ {α : Type} {q : TProg α} (f : Str) (l : Nat) (w : Str), ScopedT q → ScopedT (do dbg f l w; q) :=
    fun f l w hq => scopedT_bind (scopedT_dbg _ _ _) fun _ => hq
  unfold build
  refine scopedT_ite (scopedT_quiet (scoped_throw _)) <| scopedT_ite (hd _ _ _ (scopedT_validated _ (scopedT_envelopeBody hr))) <|
    scopedT_ite (scopedT_schemaBuild p hr) <|
    scopedT_ite (hd _ _ _ (scopedT_quiet (scoped_validated _ (scoped_bind scoped_getSymbol fun _ => scoped_pure _)))) <|
    scopedT_ite (hd _ _ _ (scopedT_validated _ (scopedT_fieldBody p))) <|
    scopedT_ite (hd _ _ _ (scopedT_validated _ (scopedT_compositeBody hr))) <|
    scopedT_ite (hd _ _ _ (scopedT_validated _ (scopedT_restrictedBody p hr))) <|
    scopedT_ite (scopedT_quiet (scoped_validated _ (scoped_bind (scoped_getString _) fun _ => scoped_pure _))) <|
    scopedT_ite (hn _ _ _) <| scopedT_ite (hn _ _ _) <| scopedT_ite (hn _ _ _) <| scopedT_ite (hn _ _ _) <| scopedT_quiet (scoped_ub _)

theorem scopedT_dispatchBody (p : Paths) {rec : TProg Element} (hr : ScopedT rec) : ScopedT (dispatchBody p rec) :=
  scopedT_bind (scopedT_quiet (scoped_attest _ _)) fun _ => scopedT_bind (scopedT_quiet (scoped_look _)) fun id => scopedT_build p hr id

theorem scopedT_dispatch (p : Paths) (n : Nat) : ScopedT (dispatch p n) := by
  induction n with
  | zero => exact scopedT_quiet (scoped_ub _)
  | succ n ih =>
    exact scopedT_guard_bind (scopedT_quiet (scoped_attest _ _)) (guard_attest _ _ (by decide)) fun _ =>
      scopedTOn_autoEnter (scopedT_dispatchBody p ih)

/-- What an element gives and prints depends on its node. -/
theorem told_dispatch_at (p : Paths) (k : Nat) {c : Cursor} {n : Node} (h : c.cur = some n) :
    dispatch p k c = (((dispatch p k (Cursor.root n)).1.1, c), (dispatch p k (Cursor.root n)).2) := by
  have hres : (dispatch p k c).1 = ((dispatch p k (Cursor.root n)).1.1, c) := by
    have e1 := congrFun (erase_dispatch p k) c
    have e2 := congrFun (erase_dispatch p k) (Cursor.root n)
    unfold erase at e1 e2
    rw [e1, e2]
    exact Corda.dispatch_at k h
  have hout : (dispatch p k c).2 = (dispatch p k (Cursor.root n)).2 := by
    cases k with
    | zero => rfl
    | succ k =>
      have e : dispatch p (k + 1) = (quiet Prog.attestDescribed >>= fun _ => autoEnter (dispatchBody p (dispatch p k))) := rfl
      have key : ∀ (c : Cursor), c.cur = some n → (dispatch p (k + 1) c).2 =
          if n.val.type = .described then (dispatchBody p (dispatch p k) ⟨[], n.kids.head?, n.kids.tail, []⟩).2 else [] := by
        intro c h
        obtain ⟨pv, cu, rs, up⟩ := c
        simp only at h
        subst h
        by_cases hd : n.val.type = .described
        · rw [if_pos hd]
          rw [e]
          rw [TProg.bind_def]
          have ha : quiet Prog.attestDescribed ⟨pv, some n, rs, up⟩ = ((.ok (), ⟨pv, some n, rs, up⟩), []) := by
            simp [quiet, Prog.attestDescribed, Prog.attest, Cursor.type, hd]
          rw [ha]
          simp only [List.nil_append]
          unfold autoEnter scope
          simp only [Bool.false_eq_true, if_false]
          rcases n with ⟨v, ks⟩
          have hu : ((⟨pv, some (.mk v ks), rs, up⟩ : Cursor).enter.next.2)
              = (⟨[], (Node.mk v ks).kids.head?, (Node.mk v ks).kids.tail, []⟩ : Cursor).under ((pv, v, rs) :: up) := by
            cases ks <;> rfl
          rw [hu, (scopedT_dispatchBody p (scopedT_dispatch p k) _).2]
        · rw [if_neg hd]
          rw [e]
          rw [TProg.bind_def]
          have ha : quiet Prog.attestDescribed ⟨pv, some n, rs, up⟩ = ((.throw "Expected a Described type", ⟨pv, some n, rs, up⟩), []) := by
            simp [quiet, Prog.attestDescribed, Prog.attest, Cursor.type, hd]
          rw [ha]
      rw [key c h, key (Cursor.root n) rfl]
  exact Prod.ext hres hout

/-! ### The readers of the payload -/

theorem scopedTOn_mapEnter {α : Type} {p : Nat → TProg α} (hp : ∀ n, ScopedT (p n)) : ScopedTOn (autoMapEnter p) := by
  intro c hc
  refine ⟨by rw [erase_autoMapEnter]; exact scopedOn_autoMapEnter (fun n => (hp n).erased) c hc, fun u => ?_⟩
  obtain ⟨u', hu⟩ := Cursor.enter_under hc u
  unfold autoMapEnter scope
  simp only [hu, Cursor.next_under, (hp _ _).2]
  rfl

theorem scopedT_autoNext {α : Type} {p : TProg α} (hp : ScopedT p) : ScopedT (autoNext p) :=
  fun c => ⟨by rw [erase_autoNext]; exact scopedAt_autoNext (hp c).1, fun u => (hp c).2 u⟩

theorem scopedT_times {α : Type} {p : TProg α} (hp : ScopedT p) (n : Nat) : ScopedT (times p n) := by
  induction n with
  | zero => exact scopedT_pure _
  | succ n ih => exact scopedT_bind hp fun _ => scopedT_bind ih fun _ => scopedT_pure _

theorem scopedT_propertyDump (p : Paths) (n : Option Str) (q : PrimReader) : ScopedT (propertyDump p n q) := by
  cases q
  case int =>
    cases n
    · exact scopedT_bind (scopedT_dbg _ _ _) fun _ => scopedT_bind (scopedT_quiet (scoped_propertyText _)) fun _ => scopedT_pure _
    · exact scopedT_bind (scopedT_dbg _ _ _) fun _ => scopedT_bind (scopedT_dbg _ _ _) fun _ =>
        scopedT_bind (scopedT_quiet (scoped_propertyText _)) fun _ => scopedT_bind (scopedT_dbg _ _ _) fun _ => scopedT_pure _
  case string =>
    cases n <;> exact scopedT_bind (scopedT_dbg _ _ _) fun _ => scopedT_bind (scopedT_readText _) fun _ => scopedT_pure _
  all_goals exact scopedT_bind (scopedT_quiet (scoped_propertyText _)) fun _ => scopedT_pure _

theorem scopedT_checkList (p : Paths) : ScopedT (checkList p) :=
  scopedT_bind (scopedT_quiet (scoped_attest _ _)) fun _ => scopedT_dbg _ _ _

theorem guard_checkList (p : Paths) : Guard (erase (checkList p)) := by
  rw [erase_checkList]
  exact guard_attest _ _ (by decide)

section
variable (p : Paths) (F : Factory) (s : Schema) {rec : Nat → Option Str → TProg Val} (h : ∀ i n, ScopedT (rec i n))
include h

theorem scopedT_useReader (i : Nat) : ScopedT (useReader F rec i) := by
  unfold useReader
  cases F.lock i with
  | none => exact scopedT_quiet (scoped_ub _)
  | some _ => exact h i none

theorem scopedT_dumpFields (fs : List (Field × Nat)) : ScopedT (dumpFields p F rec fs) := by
  induction fs with
  | nil => exact scopedT_pure _
  | cons f fs ih =>
    rcases f with ⟨f, i⟩
    unfold dumpFields
    cases F.lock i with
    | none => exact scopedT_quiet (scoped_throw _)
    | some _ => exact scopedT_bind (scopedT_dbg _ _ _) fun _ => scopedT_bind (h _ _) fun _ => scopedT_bind ih fun _ => scopedT_pure _

theorem scopedT_compositeInner (subs : List Nat) : ScopedT (do
    let d ← quiet Prog.getSymbol
    let t ← quiet (Prog.lift (s.fromDescriptor d))
    match t with
    | .restr _ => quiet (Prog.throw "std::bad_cast")
    | .comp c =>
      if c.fields.length = subs.length then do
        let _ ← quiet Prog.next
        checkList p
        autoEnter (dumpFields p F rec (c.fields.zip subs))
      else quiet (Prog.ub "assert") : TProg (List Val)) := by
  refine scopedT_bind (scopedT_quiet scoped_getSymbol) fun _ => scopedT_bind (scopedT_quiet (scoped_lift _)) fun t => ?_
  cases t with
  | restr _ => exact scopedT_quiet (scoped_throw _)
  | comp c =>
    exact scopedT_ite (scopedT_bind (scopedT_quiet scoped_next) fun _ => scopedT_guard_bind (scopedT_checkList p) (guard_checkList p)
      fun _ => scopedTOn_autoEnter (scopedT_dumpFields p F h _)) (scopedT_quiet (scoped_ub _))

theorem scopedT_compositeDump (subs : List Nat) : ScopedT (compositeDump p F s rec subs) :=
  scopedT_bind (scopedT_dbg _ _ _) fun _ => scopedT_guard_bind (scopedT_quiet (scoped_attest _ _)) guard_attestDescribed fun _ =>
    scopedTOn_autoEnter (scopedT_compositeInner p F s h subs)

theorem scopedT_listItems (subs : List Nat) (n : Nat) : ScopedT (match subs with
    | [] => quiet (Prog.ub "serialisers()[0]")
    | i :: _ => times (useReader F rec i) n : TProg (List Val)) := by
  cases subs with
  | nil => exact scopedT_quiet (scoped_ub _)
  | cons i is => exact scopedT_times (scopedT_useReader F h i) n

theorem scopedT_listInner (subs : List Nat) : ScopedT (do
    let d ← readText
    let _ ← quiet (Prog.lift (s.fromDescriptor d))
    listEnter (fun n =>
      match subs with
      | [] => quiet (Prog.ub "serialisers()[0]")
      | i :: _ => times (useReader F rec i) n) true : TProg (List Val)) :=
  scopedT_guard_bind (scopedT_readText _) (guard_readText _) fun _ =>
    scopedTOn_bind (scopedT_quiet (scoped_lift _)).on fun _ => scopedTOn_listEnter (scopedT_listItems F h subs)

theorem scopedT_listDump (subs : List Nat) : ScopedT (listDump F s rec subs) :=
  scopedT_guard_bind (scopedT_quiet (scoped_attest _ _)) guard_attestDescribed fun _ => scopedTOn_autoEnter (scopedT_listInner F s h subs)

theorem scopedT_mapItems (lf : Bool) (subs : List Nat) (n : Nat) : ScopedT (do
    dbg (p .mapReader) 44 ("  ".toList ++ natStr n)
    match subs with
    | [k, v] => times (mapEntry lf (useReader F rec k) (useReader F rec v)) ((n + 1) / 2)
    | _ => quiet (Prog.ub "assert") : TProg (List Val)) := by
  refine scopedT_bind (scopedT_dbg _ _ _) fun _ => ?_
  split
  · refine scopedT_times ?_ _
    unfold mapEntry
    refine scopedT_ite ?_ ?_ <;> exact scopedT_bind (scopedT_useReader F h _) fun _ => scopedT_bind (scopedT_useReader F h _) fun _ => scopedT_pure _
  · exact scopedT_quiet (scoped_ub _)

theorem scopedT_mapInner (lf : Bool) (subs : List Nat) : ScopedT (do
    let d ← readText
    let _ ← quiet (Prog.lift (s.fromDescriptor d))
    autoMapEnter (fun n => do
      dbg (p .mapReader) 44 ("  ".toList ++ natStr n)
      match subs with
      | [k, v] => times (mapEntry lf (useReader F rec k) (useReader F rec v)) ((n + 1) / 2)
      | _ => quiet (Prog.ub "assert")) : TProg (List Val)) :=
  scopedT_guard_bind (scopedT_readText _) (guard_readText _) fun _ =>
    scopedTOn_bind (scopedT_quiet (scoped_lift _)).on fun _ => scopedTOn_mapEnter (scopedT_mapItems p F h lf subs)

theorem scopedT_mapDump (lf : Bool) (subs : List Nat) : ScopedT (mapDump p lf F s rec subs) :=
  scopedT_guard_bind (scopedT_quiet (scoped_attest _ _)) guard_attestDescribed fun _ => scopedTOn_autoEnter (scopedT_mapInner p F s h lf subs)

end

theorem scopedT_enumInner : ScopedT (do
    let t ← quiet (Prog.look Cursor.type)
    let id ← quiet (Prog.look Prog.getUlong)
    if t = .ulong ∧ stripCorda id = REFERENCED_OBJECT then quiet (Prog.throw "Currently don't support referenced objects")
    else do
      let _ ← readText
      listEnter (fun _ => readText) true : TProg Str) :=
  scopedT_bind (scopedT_quiet (scoped_look _)) fun _ => scopedT_bind (scopedT_quiet (scoped_look _)) fun _ =>
    scopedT_ite (scopedT_quiet (scoped_throw _)) (scopedT_guard_bind (scopedT_readText _) (guard_readText _) fun _ =>
      scopedTOn_listEnter fun _ => scopedT_readText _)

theorem scopedT_enumValue : ScopedT enumValue :=
  scopedT_guard_bind (scopedT_quiet (scoped_attest _ _)) guard_attestDescribed fun _ => scopedTOn_autoEnter scopedT_enumInner

theorem scopedT_dumpWith (p : Paths) {cu : Customs} (hcu : ∀ k s n, Scoped (cu k s n)) (lf : Bool) (F : Factory) (s : Schema)
    {rec : Nat → Option Str → TProg Val} (h : ∀ i n, ScopedT (rec i n)) (o : Ser) (n : Option Str) : ScopedT (dumpWith p cu lf F s rec o n) := by
  unfold dumpWith
  cases o.kind with
  | prim q => exact scopedT_propertyDump p n q
  | enum _ =>
    exact scopedT_autoNext (scopedT_bind (scopedT_quiet (scoped_attest _ _)) fun _ => scopedT_bind scopedT_enumValue fun _ => scopedT_pure _)
  | composite =>
    exact scopedT_autoNext (scopedT_bind (scopedT_quiet (scoped_look _)) fun _ => scopedT_ite (scopedT_pure _)
      (scopedT_bind (scopedT_compositeDump p F s h _) fun _ => scopedT_pure _))
  | list => exact scopedT_autoNext (scopedT_bind (scopedT_listDump F s h _) fun _ => scopedT_pure _)
  | array => exact scopedT_autoNext (scopedT_bind (scopedT_listDump F s h _) fun _ => scopedT_pure _)
  | map =>
    cases n <;> exact scopedT_bind (scopedT_dbg _ _ _) fun _ => scopedT_autoNext (scopedT_bind (scopedT_mapDump p F s h lf _) fun _ => scopedT_pure _)
  | custom k => exact scopedT_quiet (hcu _ _ _)

theorem scopedT_dump (p : Paths) {cu : Customs} (hcu : ∀ k s n, Scoped (cu k s n)) (lf : Bool) (F : Factory) (s : Schema) (fuel : Nat) :
    ∀ i n, ScopedT (dump p cu lf F s fuel i n) := by
  induction fuel with
  | zero => exact fun _ _ => scopedT_quiet (scoped_ub _)
  | succ fuel ih =>
    intro i n
    unfold dump
    cases F.objs[i]? with
    | none => exact scopedT_quiet (scoped_ub _)
    | some o => exact scopedT_dumpWith p hcu lf F s ih o n

end Corda
