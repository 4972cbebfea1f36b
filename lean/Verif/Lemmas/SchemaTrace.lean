import Verif.Model.SchemaTrace
import Verif.Spec.SchemaTrace
import Verif.Lemmas.Trace
import Verif.Props.AnySchemaDump
import Verif.Props.AnyAvro

/-
Dumping a schema without the prints, and with them.
-/

namespace Corda
open Prog Spec

namespace TProg

/-! ### Without the prints -/

theorem erase_attestIsList (f : SchemaFiles) : erase (attestIsList f) = Prog.attestList := by
  unfold attestIsList
  rw [erase_bind]
  funext c
  rw [Prog.bind_def, erase_quiet]
  rcases Prog.attestList c with ⟨r, c'⟩
  cases r <;> rfl

theorem erase_readText (b : Bool) : erase (readText b) = Prog.readString b := rfl
theorem erase_autoNext {α : Type} (p : TProg α) : erase (autoNext p) = Prog.autoNext (erase p) := rfl
theorem erase_listEnter {α : Type} (p : Nat → TProg α) (nx : Bool) : erase (listEnter p nx) = Prog.autoListEnter (fun n => erase (p n)) nx := rfl

theorem erase_forNextGo (p : Nat → TProg Str) (n : Nat) : ∀ i, erase (forNextGo p n i) = Prog.forNextGo (fun i => erase (p i)) n i := by
  induction n with
  | zero => exact fun _ => rfl
  | succ n ih =>
    intro i
    unfold forNextGo Prog.forNextGo
    rw [erase_bind, erase_quiet]
    congr 1
    funext b
    rw [erase_ite, erase_bind]
    simp only [erase_bind, ih]
    rfl

theorem erase_forNext (p : Nat → TProg Str) : erase (forNext p) = Prog.forNext (fun i => erase (p i)) := by
  funext c
  show (forNextGo p _ 1 c).1 = _
  exact congrFun (erase_forNextGo p _ 1) c

theorem erase_byType (p : TProg Str) : erase (byType p) = Prog.byType (erase p) := by
  unfold byType Prog.byType
  simp only [erase_bind, erase_quiet, erase_ite]

section
variable (f : SchemaFiles) (base : Str → TProg Str)

theorem erase_schemaFor (k : Nat) (ai : Str) : erase (schemaFor f base k ai) = Prog.rawFor (fun ai => erase (base ai)) k ai := by
  unfold schemaFor Prog.rawFor
  simp only [erase_ite, erase_quiet]
  unfold schemaEnvelope schemaSchema schemaObject schemaField schemaComposite schemaRestricted Prog.rawEnvelope Prog.rawSchema Prog.rawObject
    Prog.rawField Prog.rawComposite Prog.rawRestricted
  simp only [erase_bind, erase_quiet, erase_attestIsList, erase_listEnter, erase_autoEnter, erase_autoNext, erase_byType, erase_forNext,
    erase_readText, erase_pure]

theorem erase_schemaBody (ai : Str) : erase (schemaBody f base ai) = Prog.rawBody (fun ai => erase (base ai)) ai := by
  unfold schemaBody Prog.rawBody
  simp only [erase_bind, erase_ite, erase_quiet, erase_attestIsList, erase_schemaFor, erase_pure]

theorem erase_schemaBase (n : Nat) : ∀ ai, erase (schemaBase f n ai) = Prog.rawBase n ai := by
  induction n with
  | zero => exact fun _ => rfl
  | succ n ih =>
    intro ai
    unfold schemaBase Prog.rawBase
    rw [erase_autoEnter, erase_schemaBody, funext ih]

theorem erase_avroFor (k : Nat) (ai : Str) : erase (avroFor f base k ai) = Prog.avroFor (fun ai => erase (base ai)) k ai := by
  unfold avroFor Prog.avroFor
  simp only [erase_ite, erase_quiet]
  unfold avroEnvelope avroSchema avroObject avroField avroComposite Prog.avroEnvelope Prog.avroSchema Prog.avroObject
    Prog.avroField Prog.avroComposite
  simp only [erase_bind, erase_quiet, erase_dbg, pure_bind', erase_attestIsList, erase_listEnter, erase_autoEnter, erase_autoNext, erase_byType,
    erase_forNext, erase_readText, erase_ite, erase_pure]

theorem erase_avroBody (ai : Str) : erase (avroBody f base ai) = Prog.avroBody (fun ai => erase (base ai)) ai := by
  unfold avroBody Prog.avroBody
  simp only [erase_bind, erase_ite, erase_quiet, erase_dbg, pure_bind', erase_attestIsList, erase_avroFor, erase_pure]

theorem erase_avroBase (n : Nat) : ∀ ai, erase (avroBase f n ai) = Prog.avroBase n ai := by
  induction n with
  | zero => exact fun _ => rfl
  | succ n ih =>
    intro ai
    unfold avroBase Prog.avroBase
    rw [erase_autoEnter, erase_avroBody, funext ih]

theorem erase_dumpSchema (t : DumpTarget) (c : Cursor) : (dumpSchema f t c).1 = Prog.dumpSchema t c := by
  unfold dumpSchema Prog.dumpSchema
  refine congrFun (f := erase _) ?_ c
  simp only [erase_bind, erase_quiet, erase_ite]
  cases t <;> simp only [erase_schemaBase, erase_avroBase, erase_pure]

end

end TProg

/-! ### With the prints -/

/-- What is left of a value that does not matter. -/
abbrev blank {α : Type} : α → Unit := fun _ => ()

/-- On the nodes of a kind, the program prints what is said there, ends as is said there, and leaves the cursor where it is. -/
def Speaks (P : Node → Prop) (p : TProg Str) (m : Saying) : Prop :=
  ∀ c n, c.cur = some n → P n → blank <$> (p c).1.1 = (m (some n)).res ∧ (p c).2 = (m (some n)).out ∧ (p c).1.2 = c

theorem ist_check {α β : Type} {P Q : Cursor → Prop} {p : Prog α} {f : α → β} {r : Res β} (h : Is P p f r Q) :
    IsT P (TProg.quiet p) blank (quietly r) Q := ist_quiet (h.map blank)

theorem ist_speaks {P : Node → Prop} {p : TProg Str} {m : Saying} (h : Speaks P p m) {ps : List Node} {i : Nat} {n : Node}
    (hn : nth ps i = some n) (hp : P n) : IsT (Pos ps i) p blank (m (nth ps i)) (Pos ps i) := by
  intro c hc
  obtain ⟨h1, h2, h3⟩ := h c n (hc.1.trans hn) hp
  rw [hn]
  exact ⟨h1, h2, fun _ _ => by rw [h3]; exact hc⟩

theorem ist_autoNext {α β : Type} {ps : List Node} {i : Nat} {p : TProg α} {f : α → β} {r : Told β}
    (h : IsT (Pos ps i) p f r (Pos ps i)) : IsT (Pos ps i) (TProg.autoNext p) f r (Pos ps (i + 1)) :=
  fun c hc => ⟨(h c hc).1, (h c hc).2.1, fun a ha => ((h c hc).2.2 a ha).next⟩

theorem ist_step {α β : Type} {ps : List Node} {i : Nat} {q : TProg α} {f : α → β} {r : Told β} {Q : Cursor → Prop}
    (h : IsT (Pos ps (i + 1)) q f r Q) : IsT (Pos ps i) (TProg.quiet Prog.next >>= fun _ => q) f r Q := by
  intro c hc
  rw [TProg.bind_def]
  have : TProg.quiet Prog.next c = ((.ok c.next.1, c.next.2), []) := rfl
  rw [this]
  exact h _ hc.next

/-- Entering, whatever happens to the cursor afterwards. -/
theorem ist_inside {α β : Type} {ps : List Node} {i : Nat} {n : Node} (hn : nth ps i = some n) {p : TProg α} {f : α → β}
    {r : Told β} {Q : Cursor → Prop} (h : IsT (Pos n.kids 0) p f r Q) : IsT (Pos ps i) (TProg.autoEnter p) f r (fun _ => True) := by
  intro c hc
  have h1 := h _ (pos_enter (hc.1.trans hn))
  exact ⟨h1.1, h1.2.1, fun _ _ => trivial⟩

theorem ist_insideList {α β : Type} {ps : List Node} {i : Nat} {n : Node} (hn : nth ps i = some n) {p : Nat → TProg α}
    {f : α → β} {r : Told β} {Q : Cursor → Prop} (h : IsT (Pos n.kids 0) (p (listElements (some n)).length) f r Q) :
    IsT (Pos ps i) (TProg.listEnter p true) f r (fun _ => True) := by
  intro c hc
  have hcur : c.cur = some n := hc.1.trans hn
  have h1 := h _ (pos_enter hcur)
  have hl : c.getList = (listElements (some n)).length := by rw [getList_eq hc, hn]
  rw [← hl] at h1
  exact ⟨h1.1, h1.2.1, fun _ _ => trivial⟩

theorem ist_insideNext {α β : Type} {ps : List Node} {i : Nat} {n : Node} (hn : nth ps i = some n) {p : Nat → TProg α}
    {f : α → β} {r : Told β} {Q : Cursor → Prop} (h : ∀ l, IsT (Pos n.kids 0) (p l) f r Q) :
    IsT (Pos ps i) (TProg.listEnter fun l => TProg.quiet Prog.next >>= fun _ => p l) f r (fun _ => True) := by
  intro c hc
  have hcur : c.cur = some n := hc.1.trans hn
  have h1 := h c.getList _ (pos_enter hcur)
  refine ⟨?_, ?_, fun _ _ => trivial⟩
  all_goals
    show _ = _
    simp only [TProg.listEnter, TProg.scope, Bool.false_eq_true, if_false]
    rw [TProg.bind_def]
    have : TProg.quiet Prog.next c.enter = ((.ok c.enter.next.1, c.enter.next.2), []) := rfl
    rw [this]
  · exact h1.1
  · exact h1.2.1

theorem speaks_loop {P : Node → Prop} {body : Nat → TProg Str} {m : Saying} (h : ∀ j, Speaks P (body j) m) :
    ∀ (ns : List Node), (∀ n ∈ ns, P n) → ∀ (fuel j : Nat) (c : Cursor), c.rest = ns → ns.length < fuel →
      blank <$> (TProg.forNextGo body fuel j c).1.1 = (inTurn (ns.map fun n => m (some n))).res ∧
      (TProg.forNextGo body fuel j c).2 = (inTurn (ns.map fun n => m (some n))).out
  | [], _, fuel + 1, j, c, hr, _ => by
    have h1 : Prog.next c = (.ok false, c) := by simp [Prog.next, Cursor.next, hr]
    unfold TProg.forNextGo
    rw [TProg.bind_def]
    simp only [TProg.quiet, h1]
    exact ⟨rfl, rfl⟩
  | n :: ns, hp, fuel + 1, j, c, hr, hl => by
    obtain ⟨d, hd⟩ : ∃ d, d = c.next.2 := ⟨_, rfl⟩
    have hb : c.next.1 = true := by simp [Cursor.next, hr]
    have hdc : d.cur = some n := by subst hd; simp [Cursor.next, hr]
    have hdr : d.rest = ns := by subst hd; simp [Cursor.next, hr]
    have h1 : Prog.next c = (.ok true, d) := by rw [hd, ← hb]; rfl
    obtain ⟨e1, e2, e3⟩ := h j d n hdc (hp n (.head _))
    have ih := speaks_loop h ns (fun x hx => hp x (.tail _ hx)) fuel (j + 1) d hdr (by simp only [List.length_cons] at hl; omega)
    unfold TProg.forNextGo
    rw [TProg.bind_def]
    simp only [TProg.quiet, h1, List.nil_append, if_true, List.map_cons, inTurn]
    rw [TProg.bind_def, Told.bind_def]
    rcases hx : body j d with ⟨⟨y, c'⟩, out⟩
    rw [hx] at e1 e2 e3
    dsimp only at e1 e2 e3
    subst e3
    generalize m (some n) = mn at e1 e2
    obtain ⟨x, o⟩ := mn
    dsimp only at e1 e2
    subst e1 e2
    cases y with
    | ok a =>
      dsimp only
      rw [TProg.bind_def]
      rcases hz : TProg.forNextGo body fuel (j + 1) c' with ⟨⟨z, c''⟩, out'⟩
      rw [hz] at ih
      cases z with
      | ok b => exact ⟨ih.1, by simpa [pure] using ih.2⟩
      | throw b => exact ⟨ih.1, congrArg (out ++ ·) ih.2⟩
      | ub b => exact ⟨ih.1, congrArg (out ++ ·) ih.2⟩
    | throw a => exact ⟨rfl, rfl⟩
    | ub a => exact ⟨rfl, rfl⟩

theorem ist_each {P : Node → Prop} {body : Nat → Nat → TProg Str} {m : Saying} (h : ∀ l j, Speaks P (body l j) m) {ps : List Node} {i : Nat}
    {n : Node} (hn : nth ps i = some n) (hp : ∀ k ∈ n.kids, P k) :
    IsT (Pos ps i) (TProg.listEnter fun l => TProg.forNext (body l)) blank (eachSaid m (nth ps i)) (fun _ => True) := by
  intro c hc
  have hcur : c.cur = some n := hc.1.trans hn
  have hr := entered_rest c n hcur
  obtain ⟨h1, h2⟩ := speaks_loop (h c.getList) n.kids hp (c.enter.rest.length + 1) 1 c.enter hr (by rw [hr]; omega)
  rw [hn]
  exact ⟨h1, h2, fun _ _ => trivial⟩

theorem speaks_map {P : Node → Prop} {p : TProg Str} {m : Saying} (h : Speaks P p m) (w : Str → Str) :
    Speaks P (p >>= fun x => pure (w x)) m := by
  intro c n hc hn
  obtain ⟨h1, h2, h3⟩ := h c n hc hn
  rw [TProg.bind_def]
  rcases hx : p c with ⟨⟨y, c'⟩, out⟩
  rw [hx] at h1 h2 h3
  cases y with
  | ok a => exact ⟨h1, by simpa [pure] using h2, h3⟩
  | throw a => exact ⟨h1, h2, h3⟩
  | ub a => exact ⟨h1, h2, h3⟩

theorem speaks_byType {P : Node → Prop} {p : TProg Str} {m : Saying} (h : Speaks P p m) : Speaks P (TProg.byType p) (elementSaid m) := by
  intro c n hc hn
  have ht : c.type = n.val.type := by simp [Cursor.type, hc]
  unfold TProg.byType elementSaid
  rw [TProg.bind_def]
  simp only [TProg.quiet, show look Cursor.type c = (.ok c.type, c) from rfl, ht, List.nil_append]
  cases n with
  | mk a ks =>
    cases a <;> first | exact ⟨rfl, rfl, rfl⟩ | exact h c _ hc hn

/-- The parts of a list are spoken about, then something is put around. -/
theorem ist_eachAround {P : Node → Prop} {body : Nat → Nat → TProg Str} {m : Saying} (h : ∀ l j, Speaks P (body l j) m) (w : Nat → Str → Str)
    {ps : List Node} {i : Nat} {n : Node} (hn : nth ps i = some n) (hp : ∀ k ∈ n.kids, P k) :
    IsT (Pos ps i) (TProg.listEnter fun l => TProg.forNext (body l) >>= fun t => pure (w l t)) blank (eachSaid m (nth ps i)) (fun _ => True) := by
  intro c hc
  obtain ⟨h1, h2, -⟩ := ist_each h hn hp c hc
  have e : ∀ l, ((TProg.forNext (body l) >>= fun t => pure (w l t)) c.enter).2 = (TProg.forNext (body l) c.enter).2 ∧
      blank <$> ((TProg.forNext (body l) >>= fun t => pure (w l t)) c.enter).1.1 = blank <$> (TProg.forNext (body l) c.enter).1.1 := by
    intro l
    rw [TProg.bind_def]
    rcases TProg.forNext (body l) c.enter with ⟨⟨y, c'⟩, out⟩
    cases y with
    | ok a => exact ⟨by simp [pure], rfl⟩
    | throw a => exact ⟨rfl, rfl⟩
    | ub a => exact ⟨rfl, rfl⟩
  refine ⟨?_, ?_, fun _ _ => trivial⟩
  · rw [← h1]; exact (e _).2
  · rw [← h2]; exact (e _).1

/-- At a list: the line is printed. -/
theorem ist_yep {γ δ : Type} {f : SchemaFiles} {l : Str} (hl : TProg.dbg f.wrapper 299 "YEP! it's a list".toList = TProg.print l) {ks xs : List Node} {i : Nat}
    (hn : nth ks i = some (.mk .list xs)) {q : TProg γ} {g : γ → δ} {r : Told δ} {Q : Cursor → Prop} (h : IsT (Pos ks i) q g r Q) :
    IsT (Pos ks i) (TProg.attestIsList f >>= fun _ => q) g (Told.line l >>= fun _ => r) Q := by
  intro c hc
  have ha : TProg.attestIsList f c = ((.ok (), c), [l ++ "\n".toList]) := by
    unfold TProg.attestIsList
    rw [TProg.bind_def]
    simp only [TProg.quiet, show Prog.attestList c = (.ok (), c) from attest_ok (by rw [Cursor.type, hc.1, hn]; rfl), hl]
    rfl
  rw [TProg.bind_def, ha]
  obtain ⟨h1, h2, h3⟩ := h c hc
  exact ⟨h1, congrArg ([l ++ "\n".toList] ++ ·) h2, h3⟩

/-- At anything: the line is printed if it is a list. -/
theorem ist_attest {γ δ : Type} {f : SchemaFiles} {l : Str} (hl : TProg.dbg f.wrapper 299 "YEP! it's a list".toList = TProg.print l) {ks : List Node} {i : Nat}
    {q : TProg γ} {g : γ → δ} {r : Told δ} {Q : Cursor → Prop}
    (h : listParts (nth ks i) = .ok (kidsOf (nth ks i)) → IsT (Pos ks i) q g r Q) :
    IsT (Pos ks i) (TProg.attestIsList f >>= fun _ => q) g (do
      quietly (listParts (nth ks i))
      Told.line l
      r) Q := by
  unfold TProg.attestIsList
  rw [hl]
  have key : IsT (Pos ks i) (TProg.quiet Prog.attestList >>= fun _ => TProg.print l) blank (do
      quietly (listParts (nth ks i))
      Told.line l) (Pos ks i) := ist_bind (h := fun _ => Told.line l) (ist_check is_attestList) fun _ _ => ist_print l
  refine (ist_bind (h := fun _ => r) key fun _ hx => ?_).eq (by rw [Told.bind_assoc])
  refine h ?_
  cases hy : listParts (nth ks i) with
  | ok ps =>
    have := list_some hy
    unfold listParts at hy
    split at hy
    · exact hy.symm
    · cases hy
  | throw m => rw [hy] at hx; cases hx
  | ub m => rw [hy] at hx; cases hx

end Corda
