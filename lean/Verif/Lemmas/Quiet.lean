import Verif.Model.Tools

/-
A small program logic: "every exception thrown is a `std::runtime_error`".
-/

namespace Corda
open Prog

/-- Exceptions that come out are `std::runtime_error`s. -/
def Res.Quiet {α : Type} (r : Res α) : Prop := ∀ m, r = .throw m → isRuntimeError m = true

/-- The same for a program, wherever it is started. -/
def Quiet {α : Type} (p : Prog α) : Prop := ∀ c, (p c).1.Quiet

theorem Res.quiet_ok {α : Type} (a : α) : (Res.ok a).Quiet := by intro m h; cases h
theorem Res.quiet_ub {α : Type} (w : String) : (Res.ub w : Res α).Quiet := by intro m h; cases h
theorem Res.quiet_throw {α : Type} {m : String} (h : isRuntimeError m = true) : (Res.throw m : Res α).Quiet := by
  intro m' e; cases e; exact h

theorem Res.quiet_bind {α β : Type} {r : Res α} {f : α → Res β} (h : r.Quiet) (hf : ∀ a, (f a).Quiet) : (r >>= f).Quiet := by
  rw [Res.bind_eq]
  cases r with
  | ok a => exact hf a
  | throw m => intro m' e; cases e; exact h m rfl
  | ub w => exact Res.quiet_ub w

theorem quiet_pure {α : Type} (a : α) : Quiet (pure a : Prog α) := fun _ => Res.quiet_ok a
theorem quiet_throw {α : Type} {m : String} (h : isRuntimeError m = true) : Quiet (Prog.throw m : Prog α) :=
  fun _ => Res.quiet_throw h
theorem quiet_ub {α : Type} (w : String) : Quiet (Prog.ub w : Prog α) := fun _ => Res.quiet_ub w
theorem quiet_look {α : Type} (f : Cursor → α) : Quiet (look f) := fun _ => Res.quiet_ok _
theorem quiet_lift {α : Type} {r : Res α} (h : r.Quiet) : Quiet (lift r) := fun _ => h
theorem quiet_next : Quiet Prog.next := fun _ => Res.quiet_ok _

theorem quiet_bind {α β : Type} {p : Prog α} {f : α → Prog β} (h : Quiet p) (hf : ∀ a, Quiet (f a)) : Quiet (p >>= f) := by
  intro c
  have := h c
  show (Prog.bind p f c).1.Quiet
  unfold Prog.bind
  rcases hp : p c with ⟨r, c'⟩
  rw [hp] at this
  cases r with
  | ok a => exact hf a c'
  | throw m => exact Res.quiet_throw (this m rfl)
  | ub w => exact Res.quiet_ub w

theorem quiet_ite {α : Type} {P : Prop} [Decidable P] {p q : Prog α} (hp : Quiet p) (hq : Quiet q) :
    Quiet (if P then p else q) := by
  split <;> assumption

theorem quiet_attest (t : PnType) {m : String} (h : isRuntimeError m = true) : Quiet (attest t m) := by
  intro c
  unfold attest
  split
  · exact Res.quiet_ok _
  · exact Res.quiet_throw h

theorem quiet_scope {α : Type} {f : Cursor → Cursor} {p : Prog α} (h : Quiet p) : Quiet (scope f p) := fun c => h (f c)
theorem quiet_autoEnter {α : Type} {p : Prog α} {b : Bool} (h : Quiet p) : Quiet (autoEnter p b) := quiet_scope h
theorem quiet_autoListEnter {α : Type} {p : Nat → Prog α} {b : Bool} (h : ∀ n, Quiet (p n)) : Quiet (autoListEnter p b) :=
  fun c => quiet_scope (h _) c
theorem quiet_autoMapEnter {α : Type} {p : Nat → Prog α} {b : Bool} (h : ∀ n, Quiet (p n)) : Quiet (autoMapEnter p b) :=
  fun c => quiet_scope (h _) c
theorem quiet_autoNext {α : Type} {p : Prog α} (h : Quiet p) : Quiet (autoNext p) := fun c => h c

theorem quiet_getString (b : Bool) : Quiet (getString b) := by
  intro c
  unfold getString
  split
  · exact Res.quiet_ok _
  · split
    · exact Res.quiet_ok _
    · exact Res.quiet_throw (by decide)
  · exact Res.quiet_throw (by decide)

theorem quiet_readString (b : Bool) : Quiet (Prog.readString b) := by
  refine quiet_autoNext fun c => ?_
  split
  · exact Res.quiet_ok _
  · exact Res.quiet_ok _
  · split
    · exact Res.quiet_ok _
    · exact Res.quiet_throw (by decide)
  · exact Res.quiet_throw (by decide)

theorem quiet_attestString (b : Bool) : Quiet (attestString b) := by
  intro c
  unfold attestString
  split
  · split
    · exact Res.quiet_throw (by decide)
    · exact Res.quiet_ok _
  · exact Res.quiet_ok _

theorem quiet_getBoolean : Quiet getBoolean := by
  intro c
  unfold getBoolean
  split
  · exact Res.quiet_ok _
  · exact Res.quiet_throw (by decide)

theorem quiet_getSymbol : Quiet getSymbol := quiet_bind (quiet_attest _ (by decide)) fun _ => quiet_look _

theorem quiet_whileNextGo {α : Type} {p : Prog α} (h : Quiet p) (fuel : Nat) : Quiet (whileNextGo p fuel) := by
  induction fuel with
  | zero => exact quiet_ub _
  | succ fuel ih =>
    exact quiet_bind quiet_next fun b => quiet_ite (quiet_bind h fun _ => quiet_bind ih fun _ => quiet_pure _) (quiet_pure _)

theorem quiet_whileNext {α : Type} {p : Prog α} (h : Quiet p) : Quiet (whileNext p) := fun c => quiet_whileNextGo h _ c

theorem quiet_forNextGo {p : Nat → Prog Str} (h : ∀ i, Quiet (p i)) (fuel i : Nat) : Quiet (forNextGo p fuel i) := by
  induction fuel generalizing i with
  | zero => exact quiet_ub _
  | succ fuel ih =>
    exact quiet_bind quiet_next fun b =>
      quiet_ite (quiet_bind (h i) fun _ => quiet_bind (ih (i + 1)) fun _ => quiet_pure _) (quiet_pure _)

theorem quiet_forNext {p : Nat → Prog Str} (h : ∀ i, Quiet (p i)) : Quiet (forNext p) := fun c => quiet_forNextGo h _ _ c

theorem quiet_times {α : Type} {p : Prog α} (h : Quiet p) (n : Nat) : Quiet (times p n) := by
  induction n with
  | zero => exact quiet_pure _
  | succ n ih => exact quiet_bind h fun _ => quiet_bind ih fun _ => quiet_pure _

/-! The dump of the data. -/

theorem quiet_rawPrimitive : Quiet rawPrimitive := by
  refine quiet_bind (quiet_look _) fun t => ?_
  cases t <;> first
    | exact quiet_pure _
    | exact quiet_bind (quiet_look _) fun _ => quiet_pure _
    | exact quiet_bind (quiet_getString _) fun _ => quiet_pure _

theorem quiet_rawList {rec : PnType → Prog Val} (h : ∀ t, Quiet (rec t)) : Quiet (rawList rec) :=
  quiet_bind (quiet_attest _ (by decide)) fun _ => quiet_autoListEnter fun _ =>
  quiet_bind (quiet_look _) fun _ => quiet_ite (quiet_pure _) <|
  quiet_bind (quiet_bind (quiet_look _) fun _ => h _) fun _ =>
  quiet_bind (quiet_whileNext (quiet_bind (quiet_look _) fun _ => h _)) fun _ => quiet_pure _

theorem quiet_rawMap {rec : PnType → Prog Val} (h : ∀ t, Quiet (rec t)) : Quiet (rawMap rec) :=
  have hs : Quiet (rawStep rec) := quiet_bind (quiet_autoNext (quiet_look _)) fun _ => h _
  quiet_bind (quiet_attest _ (by decide)) fun _ => quiet_autoMapEnter fun _ =>
  quiet_bind (quiet_look _) fun _ => quiet_ite (quiet_pure _) <|
  quiet_times (quiet_bind hs fun _ => quiet_bind hs fun _ => quiet_bind quiet_next fun _ => quiet_pure _) _

theorem quiet_rawDescribed {rec : PnType → Prog Val} (h : ∀ t, Quiet (rec t)) : Quiet (rawDescribed rec) :=
  quiet_autoEnter <| quiet_bind (quiet_readString _) fun _ => quiet_bind (quiet_look _) fun _ =>
  quiet_ite (quiet_bind (quiet_rawList h) fun _ => quiet_pure _) <|
  quiet_ite (quiet_bind (quiet_rawMap h) fun _ => quiet_pure _) (quiet_throw (by decide))

theorem quiet_rawAs (fuel : Nat) (t : PnType) : Quiet (rawAs fuel t) := by
  induction fuel generalizing t with
  | zero => exact quiet_ub _
  | succ fuel ih =>
    cases t <;> first
      | exact quiet_bind (quiet_rawList ih) fun _ => quiet_pure _
      | exact quiet_bind (quiet_rawMap ih) fun _ => quiet_pure _
      | exact quiet_rawDescribed ih
      | exact quiet_rawPrimitive

theorem quiet_dumpData : Quiet dumpData := fun c =>
  (quiet_bind (quiet_look _) fun _ => quiet_ite
    (quiet_bind (quiet_attest _ (by decide)) fun _ =>
      quiet_bind (quiet_autoEnter (quiet_bind (quiet_autoNext (quiet_look _)) fun _ => quiet_ite (quiet_pure _) (quiet_ub _))) fun _ =>
      quiet_bind (quiet_autoEnter (quiet_bind (quiet_attest _ (by decide)) fun _ => quiet_autoListEnter fun _ =>
        quiet_bind (quiet_attest _ (by decide)) fun _ => quiet_rawDescribed (quiet_rawAs _))) fun _ => quiet_pure _)
    (quiet_ub _)) c

/-! The raw dump of the schema. -/

theorem quiet_byType {base : Prog Str} (h : Quiet base) : Quiet (byType base) :=
  quiet_bind (quiet_look _) fun _ => quiet_ite h (quiet_ub _)

theorem quiet_strings (f : Str → Str) : Quiet (forNext (fun _ => do let s ← getString; pure (f s))) :=
  quiet_forNext fun _ => quiet_bind (quiet_getString _) fun _ => quiet_pure _

theorem quiet_rawFor {base : Str → Prog Str} (h : ∀ ai, Quiet (base ai)) (key : Nat) (ai : Str) :
    Quiet (rawFor base key ai) := by
  have hl : Quiet attestList := quiet_attest _ (by decide)
  have hd : Quiet attestDescribed := quiet_attest _ (by decide)
  unfold rawFor
  refine quiet_ite (h _) <| quiet_ite ?_ <| quiet_ite ?_ <| quiet_ite ?_ <| quiet_ite ?_ <| quiet_ite ?_ <| quiet_ite ?_ <|
    quiet_ite (h _) <| quiet_ite (h _) <| quiet_ite (h _) <| quiet_ite (h _) <| quiet_ite (h _) (quiet_ub _)
  · exact quiet_bind hl fun _ => quiet_autoEnter <| quiet_bind (quiet_autoNext (quiet_byType (h _))) fun _ =>
      quiet_bind (quiet_autoNext (quiet_byType (h _))) fun _ => quiet_pure _
  · exact quiet_bind hl fun _ => quiet_autoListEnter fun _ => quiet_forNext fun _ => quiet_bind hl fun _ =>
      quiet_autoListEnter fun _ => quiet_bind (quiet_forNext fun _ => quiet_bind (quiet_byType (h _)) fun _ => quiet_pure _)
      fun _ => quiet_pure _
  · exact quiet_bind hl fun _ => quiet_autoListEnter fun _ => quiet_bind quiet_next fun _ =>
      quiet_bind (quiet_autoNext quiet_getSymbol) fun _ => quiet_bind (quiet_look _) fun _ => quiet_pure _
  · exact quiet_bind hl fun _ => quiet_autoListEnter fun _ =>
      quiet_bind (quiet_autoNext (quiet_getString _)) fun _ => quiet_bind (quiet_autoNext (quiet_getString _)) fun _ =>
      quiet_bind (quiet_autoListEnter fun _ => quiet_bind (quiet_strings _) fun _ => quiet_pure _) fun _ =>
      quiet_bind quiet_next fun _ => quiet_bind (quiet_attestString _) fun _ =>
      quiet_bind (quiet_autoNext (quiet_getString _)) fun _ => quiet_bind (quiet_autoNext (quiet_getString _)) fun _ =>
      quiet_bind (quiet_autoNext quiet_getBoolean) fun _ => quiet_bind (quiet_autoNext quiet_getBoolean) fun _ => quiet_pure _
  · exact quiet_bind hl fun _ => quiet_autoEnter <| quiet_bind (quiet_attestString _) fun _ =>
      quiet_bind (quiet_readString _) fun _ => quiet_bind (quiet_attestString _) fun _ =>
      quiet_bind (quiet_readString _) fun _ => quiet_bind hl fun _ =>
      quiet_bind (quiet_autoListEnter fun _ => quiet_strings _) fun _ => quiet_bind quiet_next fun _ =>
      quiet_bind hd fun _ => quiet_bind (quiet_autoNext (quiet_byType (h _))) fun _ =>
      quiet_bind (quiet_autoListEnter fun _ => quiet_forNext fun _ => quiet_bind (quiet_byType (h _)) fun _ => quiet_pure _)
      fun _ => quiet_pure _
  · exact quiet_bind hl fun _ => quiet_autoEnter <| quiet_bind (quiet_readString _) fun _ =>
      quiet_bind (quiet_readString _) fun _ => quiet_bind (quiet_autoListEnter fun _ => quiet_strings _) fun _ =>
      quiet_bind quiet_next fun _ => quiet_bind (quiet_readString _) fun _ =>
      quiet_bind (quiet_autoNext (quiet_byType (h _))) fun _ => quiet_pure _

theorem quiet_rawBase (fuel : Nat) (ai : Str) : Quiet (rawBase fuel ai) := by
  induction fuel generalizing ai with
  | zero => exact quiet_ub _
  | succ fuel ih =>
    exact quiet_autoEnter <| quiet_bind (quiet_look _) fun _ => quiet_ite
      (quiet_bind (quiet_autoNext (quiet_look _)) fun _ => quiet_bind (quiet_attest _ (by decide)) fun _ =>
        quiet_bind (quiet_look _) fun _ => quiet_bind (quiet_rawFor ih _ _) fun _ => quiet_pure _)
      (quiet_ite (quiet_bind (quiet_look _) fun _ => quiet_pure _) (quiet_throw (by decide)))

theorem quiet_dumpRaw : Quiet (dumpSchema .raw) := fun c =>
  (quiet_bind (quiet_look _) fun _ => quiet_ite (quiet_throw (by decide)) (quiet_rawBase _ _)) c

end Corda
