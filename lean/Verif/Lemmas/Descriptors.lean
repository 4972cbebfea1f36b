import Verif.Lemmas.Prog
import Verif.Model.Descriptors

/-
The schema readers as cursor programs: they stay in scope, and their fuel suffices.
-/

namespace Corda
open Prog

theorem scoped_foldNextGo {σ : Type} {p : σ → Prog σ} (hp : ∀ s, ScopedOn (p s)) (fuel : Nat) (s : σ) :
    Scoped (foldNextGo p fuel s) := by
  induction fuel generalizing s with
  | zero => exact scoped_ub _
  | succ fuel ih =>
    exact scoped_next_bind (scopedOn_bind (hp s) fun a => (ih a).on) (scoped_pure _)

theorem scoped_foldNext {σ : Type} {p : σ → Prog σ} (hp : ∀ s, ScopedOn (p s)) (s : σ) : Scoped (foldNext p s) :=
  fun c => ⟨(scoped_foldNextGo hp _ s c).1, fun u => (scoped_foldNextGo hp _ s c).2 u⟩

theorem scoped_asDescriptor (e : Element) : Scoped (asDescriptor e) := by
  cases e <;> first | exact scoped_pure _ | exact scoped_ub _
theorem scoped_asField (e : Element) : Scoped (asField e) := by
  cases e <;> first | exact scoped_pure _ | exact scoped_ub _
theorem scoped_asChoice (e : Element) : Scoped (asChoice e) := by
  cases e <;> first | exact scoped_pure _ | exact scoped_ub _
theorem scoped_asNotation (e : Element) : Scoped (asNotation e) := by
  cases e <;> first | exact scoped_pure _ | exact scoped_ub _
theorem scoped_asSchema (e : Element) : Scoped (asSchema e) := by
  cases e <;> first | exact scoped_pure _ | exact scoped_ub _

theorem scoped_validateAndNext (k : Nat) : Scoped (validateAndNext k) :=
  scoped_bind (scoped_attest _ _) fun _ => scoped_bind (scoped_look _) fun _ =>
    scoped_ite (scoped_throw _) (scoped_bind scoped_next fun _ => scoped_pure _)

theorem guard_validateAndNext (k : Nat) : Guard (validateAndNext k) := by
  intro c a h
  cases hc : c.cur with
  | none =>
    have : attest .ulong "Bad type for a descriptor" c = (.throw "Bad type for a descriptor", c) := by
      simp [attest, Cursor.type, hc]
    unfold validateAndNext at h
    rw [bind_of_throw this] at h
    simp at h
  | some n => exact (scoped_validateAndNext k c).1.2.2 (by simp [hc])

theorem scopedOn_stringList : ScopedOn stringList :=
  scopedOn_autoListEnter fun _ => scoped_whileNext (scoped_getString _).on

theorem scoped_fieldBody : Scoped fieldBody :=
  scoped_guard_bind (scoped_getString _) (guard_getString _) fun _ =>
  scopedOn_bind scoped_next.on fun _ => scopedOn_bind (scoped_getString _).on fun _ =>
  scopedOn_bind scoped_next.on fun _ => scopedOn_bind scopedOn_stringList fun _ =>
  (scoped_bind scoped_next fun _ => scoped_bind (scoped_getString _) fun _ =>
   scoped_bind scoped_next fun _ => scoped_bind (scoped_getString _) fun _ =>
   scoped_bind scoped_next fun _ => scoped_bind scoped_getBoolean fun _ =>
   scoped_bind scoped_next fun _ => scoped_bind scoped_getBoolean fun _ =>
   scoped_bind (scoped_lift _) fun _ => scoped_pure _).on

theorem scoped_validated {α : Type} {p : Prog α} (k : Nat) (hp : Scoped p) :
    Scoped (do validateAndNext k; autoEnter p) :=
  scoped_guard_bind (scoped_validateAndNext k) (guard_validateAndNext k) fun _ => scopedOn_autoEnter hp

theorem scoped_compositeBody {rec : Prog Element} (hr : Scoped rec) : Scoped (compositeBody rec) :=
  scoped_guard_bind (scoped_getString _) (guard_getString _) fun _ =>
  scopedOn_bind scoped_next.on fun _ => scopedOn_bind (scoped_getString _).on fun _ =>
  scopedOn_bind scoped_next.on fun _ => scopedOn_bind scopedOn_stringList fun _ =>
  scopedOn_bind scoped_next.on fun _ => scopedOn_bind hr.on fun d =>
  scopedOn_bind (scoped_asDescriptor d).on fun _ => scopedOn_bind scoped_next.on fun _ =>
  scopedOn_bind (scopedOn_autoListEnter fun _ => scoped_whileNext
    (scopedOn_bind hr.on fun e => (scoped_asField e).on)) fun _ => (scoped_pure _).on

theorem scoped_restrictedBody {rec : Prog Element} (hr : Scoped rec) : Scoped (restrictedBody rec) :=
  scoped_guard_bind (scoped_readString _) (guard_readString _) fun _ =>
  scopedOn_bind (scoped_readString _).on fun _ => scopedOn_bind scopedOn_stringList fun _ =>
  scopedOn_bind scoped_next.on fun _ => scopedOn_bind (scoped_readString _).on fun _ =>
  scopedOn_bind hr.on fun d =>
  scopedOn_bind (scoped_asDescriptor d).on fun _ => scopedOn_bind scoped_next.on fun _ =>
  scopedOn_bind (scopedOn_autoListEnter fun _ => scoped_whileNext
    (scopedOn_bind hr.on fun e => (scoped_asChoice e).on)) fun _ =>
  (scoped_bind (scoped_lift _) fun _ => scoped_pure _).on

theorem scopedOn_schemaStep {rec : Prog Element} (hr : Scoped rec) (ls : List (List TypeNotation)) :
    ScopedOn (schemaStep rec ls) :=
  scopedOn_bind hr.on fun e => scopedOn_bind (scoped_asNotation e).on fun _ => (scoped_lift _).on

theorem scoped_schemaBuild {rec : Prog Element} (hr : Scoped rec) : Scoped (schemaBuild rec) :=
  scoped_guard_bind (scoped_validateAndNext _) (guard_validateAndNext _) fun _ =>
  scopedOn_bind (scopedOn_autoListEnter fun _ => scoped_foldNext (fun ls =>
    scopedOn_autoListEnter fun _ => scoped_foldNext (fun ls => scopedOn_schemaStep hr ls) ls) _)
    fun _ => (scoped_pure _).on

theorem scoped_consumeBlob : Scoped consumeBlob :=
  scoped_guard_bind (scoped_attest _ _) (guard_attest _ _ (by decide)) fun _ => scopedOn_autoEnter scoped_getSymbol

theorem scoped_envelopeBody {rec : Prog Element} (hr : Scoped rec) : Scoped (envelopeBody rec) :=
  scoped_bind scoped_consumeBlob fun _ => scoped_bind scoped_next fun _ => scoped_bind hr fun e =>
  scoped_bind (scoped_asSchema e) fun _ => scoped_bind scoped_next fun _ => scoped_pure _

theorem scoped_build {rec : Prog Element} (hr : Scoped rec) (id : Nat) : Scoped (build rec id) := by
  have hn : ∀ k, Scoped (nullBuild k) := fun k => scoped_bind (scoped_validateAndNext k) fun _ => scoped_pure _
  unfold build
  refine scoped_ite (scoped_throw _) <| scoped_ite (scoped_validated _ (scoped_envelopeBody hr)) <|
    scoped_ite (scoped_schemaBuild hr) <|
    scoped_ite (scoped_validated _ (scoped_bind scoped_getSymbol fun _ => scoped_pure _)) <|
    scoped_ite (scoped_validated _ scoped_fieldBody) <|
    scoped_ite (scoped_validated _ (scoped_compositeBody hr)) <|
    scoped_ite (scoped_validated _ (scoped_restrictedBody hr)) <|
    scoped_ite (scoped_validated _ (scoped_bind (scoped_getString _) fun _ => scoped_pure _)) <|
    scoped_ite (hn _) <| scoped_ite (hn _) <| scoped_ite (hn _) <| scoped_ite (hn _) <| scoped_ub _

theorem scoped_dispatchBody {rec : Prog Element} (hr : Scoped rec) : Scoped (dispatchBody rec) :=
  scoped_bind (scoped_attest _ _) fun _ => scoped_bind (scoped_look _) fun id => scoped_build hr id

theorem scoped_dispatch (n : Nat) : Scoped (dispatch n) := by
  induction n with
  | zero => exact scoped_ub _
  | succ n ih =>
    exact scoped_guard_bind (scoped_attest _ _) (guard_attest _ _ (by decide)) fun _ =>
      scopedOn_autoEnter (scoped_dispatchBody ih)

/-- `dispatchDescribed` leaves the cursor exactly where it was. -/
theorem dispatch_cursor (n : Nat) (c : Cursor) : (dispatch n c).2 = c := by
  cases n with
  | zero => rfl
  | succ n =>
    unfold dispatch
    by_cases h : c.type = .described
    · have h1 : attestDescribed c = (.ok (), c) := by simp [attestDescribed, attest, h]
      have hc : c.cur.isSome = true := by
        unfold Cursor.type at h
        cases hc : c.cur with
        | none => rw [hc] at h; simp at h
        | some n => rfl
      rw [bind_of_ok h1, autoEnter_eq (scoped_dispatchBody (scoped_dispatch n)) hc]
    · have h1 : attestDescribed c = (.throw "Expected a Described type", c) := by
        simp [attestDescribed, attest, h]
      rw [bind_of_throw h1]

end Corda
