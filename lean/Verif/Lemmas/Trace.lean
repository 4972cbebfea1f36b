import Verif.Model.Trace
import Verif.Spec.Trace
import Verif.Lemmas.Meaning
import Verif.Props.RawDump

/-
Programs that print: what remains when the prints are taken away, and programs with a known outcome and known prints.
-/

namespace Corda
open Prog Spec

namespace TProg

/-! ### Without the prints -/

/-- The program without its prints. -/
def erase {α : Type} (p : TProg α) : Prog α := fun c => (p c).1

theorem bind_def {α β : Type} (p : TProg α) (f : α → TProg β) (c : Cursor) :
    (p >>= f) c = match p c with
      | ((.ok a, c'), out) => ((f a c').1, out ++ (f a c').2)
      | ((.throw m, c'), out) => ((.throw m, c'), out)
      | ((.ub w, c'), out) => ((.ub w, c'), out) := rfl

@[simp] theorem erase_bind {α β : Type} (p : TProg α) (f : α → TProg β) : erase (p >>= f) = (erase p >>= fun a => erase (f a)) := by
  funext c
  unfold erase
  rw [bind_def, Prog.bind_def]
  rcases p c with ⟨⟨r, c'⟩, out⟩
  cases r <;> rfl

@[simp] theorem erase_pure {α : Type} (a : α) : erase (pure a) = pure a := rfl
@[simp] theorem erase_quiet {α : Type} (p : Prog α) : erase (quiet p) = p := rfl
@[simp] theorem erase_print (s : Str) : erase (print s) = pure () := rfl
@[simp] theorem erase_dbg (f : Str) (l : Nat) (s : Str) : erase (dbg f l s) = pure () := rfl

theorem erase_ite {α : Type} (b : Prop) [Decidable b] (p q : TProg α) : erase (if b then p else q) = if b then erase p else erase q := by
  split <;> rfl

theorem erase_autoEnter {α : Type} (p : TProg α) (nx : Bool) : erase (autoEnter p nx) = Prog.autoEnter (erase p) nx := rfl
theorem erase_autoListEnter {α : Type} (p : Nat → TProg α) : erase (autoListEnter p) = Prog.autoListEnter (fun n => erase (p n)) true := rfl
theorem erase_autoMapEnter {α : Type} (p : Nat → TProg α) : erase (autoMapEnter p) = Prog.autoMapEnter (fun n => erase (p n)) true := rfl

theorem pure_bind' {α β : Type} (a : α) (f : α → Prog β) : (pure a >>= f : Prog β) = f a := rfl

theorem erase_whileNextGo {α : Type} (p : TProg α) (n : Nat) : erase (whileNextGo p n) = Prog.whileNextGo (erase p) n := by
  induction n with
  | zero => rfl
  | succ n ih =>
    unfold whileNextGo Prog.whileNextGo
    rw [erase_bind, erase_quiet]
    congr 1
    funext b
    rw [erase_ite, erase_bind]
    simp only [erase_bind, ih]
    rfl

theorem erase_whileNext {α : Type} (p : TProg α) : erase (whileNext p) = Prog.whileNext (erase p) := by
  funext c
  show (whileNextGo p _ c).1 = _
  exact congrFun (erase_whileNextGo p _) c

theorem erase_times {α : Type} (p : TProg α) (n : Nat) : erase (times p n) = Prog.times (erase p) n := by
  induction n with
  | zero => rfl
  | succ n ih =>
    unfold times Prog.times
    simp only [erase_bind, ih]
    rfl

theorem erase_attestList (f : Files) : erase (attestList f) = Prog.attestList := by
  unfold attestList
  rw [erase_bind]
  funext c
  rw [Prog.bind_def, erase_quiet]
  rcases Prog.attestList c with ⟨r, c'⟩
  cases r <;> rfl

theorem erase_readString : erase readString = Prog.readString := rfl

section
variable (f : Files) {rec : PnType → TProg Val} {rec' : PnType → Prog Val}

theorem erase_listBody (h : ∀ t, erase (rec t) = rec' t) : erase (do
    let t ← quiet (Prog.look Cursor.type)
    if t = .invalid then pure [.single emptyListText]
    else do
      let elem : TProg Val := do
        let t ← quiet (Prog.look Cursor.type)
        rec t
      let v ← elem
      let vs ← whileNext elem
      pure (v :: vs) : TProg (List Val)) = (do
    let t ← Prog.look Cursor.type
    if t = .invalid then pure [.single emptyListText]
    else do
      let elem : Prog Val := do
        let t ← Prog.look Cursor.type
        rec' t
      let v ← elem
      let vs ← Prog.whileNext elem
      pure (v :: vs) : Prog (List Val)) := by
  simp only [erase_bind, erase_quiet, erase_ite, erase_whileNext, h, erase_pure]

theorem erase_rawList (h : ∀ t, erase (rec t) = rec' t) : erase (rawList f rec) = Prog.rawList rec' := by
  unfold rawList Prog.rawList
  rw [erase_bind, erase_attestList]
  congr 1
  funext _
  rw [erase_autoListEnter]
  congr 1
  funext _
  exact erase_listBody h

theorem erase_rawStep (l : Nat) (h : ∀ t, erase (rec t) = rec' t) : erase (rawStep f l rec) = Prog.rawStep rec' := by
  unfold rawStep Prog.rawStep
  simp only [erase_bind, erase_quiet, erase_dbg, h, pure_bind']

theorem erase_rawPair (h : ∀ t, erase (rec t) = rec' t) : erase (rawPair f rec) = Prog.rawPair rec' := by
  unfold rawPair Prog.rawPair
  simp only [erase_bind, erase_quiet, erase_rawStep f _ h, erase_pure]

theorem erase_mapBody (h : ∀ t, erase (rec t) = rec' t) (n : Nat) : erase (do
    let t ← quiet (Prog.look Cursor.type)
    if t = .invalid then pure [.single emptyMapText]
    else do
      dbg f.blob 170 "MAP IS NOT EMPTY".toList
      times (rawPair f rec) ((n + 1) / 2) : TProg (List Val)) = (do
    let t ← Prog.look Cursor.type
    if t = .invalid then pure [.single emptyMapText]
    else Prog.times (Prog.rawPair rec') ((n + 1) / 2) : Prog (List Val)) := by
  simp only [erase_bind, erase_quiet, erase_ite, erase_dbg, erase_times, erase_rawPair f h, erase_pure, pure_bind']

theorem erase_rawMap (h : ∀ t, erase (rec t) = rec' t) : erase (rawMap f rec) = Prog.rawMap rec' := by
  unfold rawMap Prog.rawMap
  rw [erase_bind, erase_quiet]
  congr 1
  funext _
  rw [erase_autoMapEnter]
  congr 1
  funext n
  exact erase_mapBody f h n

theorem erase_describedBody (h : ∀ t, erase (rec t) = rec' t) : erase (do
    let fp ← readString
    dbg f.blob 217 ("  FINGERPRINT: ".toList ++ fp)
    let t ← quiet (Prog.look Cursor.type)
    if t = .list then do
      let vs ← rawList f rec
      pure (.pairList fp vs)
    else if t = .map then do
      let vs ← rawMap f rec
      pure (.pairList fp vs)
    else quiet (Prog.throw "Described data must be either a list or map") : TProg Val) = (do
    let fp ← Prog.readString
    let t ← Prog.look Cursor.type
    if t = .list then do
      let vs ← Prog.rawList rec'
      pure (.pairList fp vs)
    else if t = .map then do
      let vs ← Prog.rawMap rec'
      pure (.pairList fp vs)
    else Prog.throw "Described data must be either a list or map" : Prog Val) := by
  simp only [erase_bind, erase_quiet, erase_ite, erase_dbg, erase_readString, erase_rawList f h, erase_rawMap f h, erase_pure, pure_bind']

theorem erase_rawDescribed (h : ∀ t, erase (rec t) = rec' t) : erase (rawDescribed f rec) = Prog.rawDescribed rec' := by
  unfold rawDescribed Prog.rawDescribed
  rw [erase_bind, erase_dbg, pure_bind', erase_autoEnter]
  congr 1
  exact erase_describedBody f h

theorem erase_rawAs (n : Nat) : ∀ t, erase (rawAs f n t) = Prog.rawAs n t := by
  induction n with
  | zero => exact fun _ => rfl
  | succ n ih =>
    intro t
    cases t <;> unfold rawAs Prog.rawAs <;> dsimp only <;>
      simp only [erase_bind, erase_rawList f ih, erase_rawMap f ih, erase_rawDescribed f ih, erase_quiet, erase_pure]

theorem erase_dumpData (c : Cursor) : (dumpData f c).1 = Prog.dumpData c := by
  have hr := erase_rawAs f c.fuel
  unfold dumpData Prog.dumpData
  refine congrFun (f := erase _) ?_ c
  simp only [erase_bind, erase_quiet, erase_ite, erase_autoEnter, erase_autoListEnter, erase_attestList, erase_rawDescribed f hr, erase_pure]

end

end TProg

/-! ### Programs with a known outcome and known prints -/

/-- From a position where `P` holds, the outcome seen through `f` and the prints are `r`, and if there is an outcome, `Q` holds afterwards. -/
def IsT {α β : Type} (P : Cursor → Prop) (p : TProg α) (f : α → β) (r : Told β) (Q : Cursor → Prop) : Prop :=
  ∀ c, P c → (f <$> (p c).1.1) = r.res ∧ (p c).2 = r.out ∧ ∀ a, (p c).1.1 = .ok a → Q (p c).1.2

theorem Told.bind_def {α β : Type} (r : Told α) (k : α → Told β) : (r >>= k) =
    (match r with
    | ⟨.ok a, o⟩ => ⟨(k a).res, o ++ (k a).out⟩
    | ⟨.throw m, o⟩ => ⟨.throw m, o⟩
    | ⟨.ub w, o⟩ => ⟨.ub w, o⟩ : Told β) := rfl

theorem ist_bind {α β γ δ : Type} {P Q R : Cursor → Prop} {p : TProg α} {f : α → β} {r : Told β} {k : α → TProg γ} {g : γ → δ}
    {h : β → Told δ} (hp : IsT P p f r Q) (hk : ∀ a, r.res = .ok (f a) → IsT Q (k a) g (h (f a)) R) :
    IsT P (p >>= k) g (r >>= h) R := by
  intro c hc
  obtain ⟨h1, h2, h3⟩ := hp c hc
  obtain ⟨x, o⟩ := r
  rw [TProg.bind_def, Told.bind_def]
  rcases hpc : p c with ⟨⟨y, c'⟩, out⟩
  rw [hpc] at h1 h2 h3
  dsimp only at h1 h2 h3 hk ⊢
  subst h1 h2
  cases y with
  | ok a =>
    have := hk a rfl c' (h3 a rfl)
    exact ⟨this.1, congrArg (out ++ ·) this.2.1, this.2.2⟩
  | throw m => exact ⟨rfl, rfl, fun a h => by cases h⟩
  | ub m => exact ⟨rfl, rfl, fun a h => by cases h⟩

theorem ist_pure {α β : Type} {P : Cursor → Prop} (f : α → β) (a : α) : IsT P (pure a) f (pure (f a)) P :=
  fun _ hc => ⟨rfl, rfl, fun _ _ => hc⟩

theorem ist_quiet {α β : Type} {P Q : Cursor → Prop} {p : Prog α} {f : α → β} {r : Res β} (h : Is P p f r Q) :
    IsT P (TProg.quiet p) f (Told.silent r) Q := fun c hc => ⟨(h c hc).1, rfl, (h c hc).2⟩

theorem ist_print {P : Cursor → Prop} (s : Str) : IsT P (TProg.print s) id (Told.line s) P :=
  fun _ hc => ⟨rfl, rfl, fun _ _ => hc⟩

theorem IsT.post {α β : Type} {P Q R : Cursor → Prop} {p : TProg α} {f : α → β} {r : Told β} (h : IsT P p f r Q)
    (hq : ∀ c, Q c → R c) : IsT P p f r R := fun c hc => ⟨(h c hc).1, (h c hc).2.1, fun a ha => hq _ ((h c hc).2.2 a ha)⟩

theorem IsT.eq {α β : Type} {P Q : Cursor → Prop} {p : TProg α} {f : α → β} {r r' : Told β} (h : IsT P p f r Q) (e : r = r') :
    IsT P p f r' Q := e ▸ h

/-- Then a print. -/
theorem ist_line {γ δ : Type} {P R : Cursor → Prop} {s s' : Str} {k : TProg γ} {g : γ → δ} {h : Told δ} (e : s = s')
    (hk : IsT P k g h R) : IsT P (TProg.print s >>= fun _ => k) g (Told.line s' >>= fun _ => h) R := by
  subst e
  exact ist_bind (ist_print s) fun _ _ => hk

/-- Look at the outcome through another pair of glasses. -/
theorem IsT.map {α β γ : Type} {P Q : Cursor → Prop} {p : TProg α} {f : α → β} {r : Told β} (h : IsT P p f r Q) (g : β → γ) :
    IsT P p (fun a => g (f a)) (r >>= fun x => pure (g x)) Q := by
  intro c hc
  obtain ⟨h1, h2, h3⟩ := h c hc
  refine ⟨?_, ?_, h3⟩
  all_goals
    obtain ⟨x, o⟩ := r
    dsimp only at h1 h2
    subst h1 h2
    cases (p c).1.1 <;> simp [Told.bind_def, pure]

theorem Told.ext {α : Type} {r r' : Told α} (h1 : r.res = r'.res) (h2 : r.out = r'.out) : r = r' := by
  cases r; cases r'; cases h1; cases h2; rfl

theorem Told.bind_pure {α : Type} (r : Told α) : (r >>= fun x => pure x) = r := by
  obtain ⟨x, o⟩ := r
  cases x <;> simp [Told.bind_def, pure]

theorem Told.pure_bind {α β : Type} (a : α) (k : α → Told β) : (pure a >>= k : Told β) = k a := rfl

theorem Told.bind_assoc {α β γ : Type} (r : Told α) (k : α → Told β) (l : β → Told γ) :
    ((r >>= k) >>= l) = (r >>= fun a => k a >>= l) := by
  obtain ⟨x, o⟩ := r
  cases x with
  | ok a =>
    simp only [Told.bind_def]
    rcases k a with ⟨y, o'⟩
    cases y <;> simp
  | throw m => rfl
  | ub m => rfl

theorem ist_enter {α β : Type} {ps : List Node} {i : Nat} {n : Node} (hn : nth ps i = some n) {p : TProg α} {f : α → β}
    {r : Told β} {Q : Cursor → Prop} (hp : Scoped p.erase) (h : IsT (Pos n.kids 0) p f r Q) :
    IsT (Pos ps i) (TProg.autoEnter p) f r (Pos ps i) := by
  intro c hc
  have hcur : c.cur = some n := hc.1.trans hn
  have h1 := h _ (pos_enter hcur)
  have e : (TProg.autoEnter p false c).1 = _ := autoEnter_eq (nx := false) hp (c := c) (by rw [hcur]; rfl)
  rw [e]
  exact ⟨h1.1, h1.2.1, fun _ _ => hc⟩

theorem ist_listEnter {α β : Type} {ps : List Node} {i : Nat} {n : Node} (hn : nth ps i = some n) {p : Nat → TProg α}
    {f : α → β} {r : Told β} {Q : Cursor → Prop} (hp : ∀ k, Scoped (p k).erase)
    (h : IsT (Pos n.kids 0) (p (listElements (some n)).length) f r Q) :
    IsT (Pos ps i) (TProg.autoListEnter p) f r (Pos ps i) := by
  intro c hc
  have hcur : c.cur = some n := hc.1.trans hn
  have h1 := h _ (pos_enter hcur)
  have hl : c.getList = (listElements (some n)).length := by rw [getList_eq hc, hn]
  rw [← hl] at h1
  have e : (TProg.autoListEnter p c).1 = _ := autoListEnter_eq (nx := true) hp (c := c) (by rw [hcur]; rfl)
  rw [e]
  exact ⟨h1.1, h1.2.1, fun _ _ => hc⟩

theorem ist_mapEnter {α β : Type} {ps : List Node} {i : Nat} {n : Node} (hn : nth ps i = some n) {p : Nat → TProg α}
    {f : α → β} {r : Told β} {Q : Cursor → Prop} (hp : ∀ k, Scoped (p k).erase)
    (h : IsT (Pos n.kids 0) (p (mapParts (some n)).length) f r Q) :
    IsT (Pos ps i) (TProg.autoMapEnter p) f r (Pos ps i) := by
  intro c hc
  have hcur : c.cur = some n := hc.1.trans hn
  have h1 := h _ (pos_enter hcur)
  have hl : c.getMap = (mapParts (some n)).length := by rw [getMap_eq hc, hn]
  rw [← hl] at h1
  have e : (TProg.autoMapEnter p c).1 = _ := autoMapEnter_eq (nx := true) hp (c := c) (by rw [hcur]; rfl)
  rw [e]
  exact ⟨h1.1, h1.2.1, fun _ _ => hc⟩

/-- Again and again, each time going `k` parts on. -/
theorem ist_times {α β : Type} {p : TProg α} {f : α → β} {ps : List Node} {k : Nat} {m : Nat → Told β}
    (h : ∀ i, IsT (Pos ps i) p f (m i) (Pos ps (i + k))) (n i : Nat) :
    IsT (Pos ps i) (TProg.times p n) (List.map f) (Told.all ((List.range n).map fun j => m (i + k * j))) (fun _ => True) := by
  induction n generalizing i with
  | zero => exact (ist_pure (List.map f) []).post fun _ _ => trivial
  | succ n ih =>
    rw [TProg.times, List.range_succ_eq_map, List.map_cons, List.map_map, Told.all]
    refine ist_bind (f := f) ((h i).eq (by simp)) fun a _ => ?_
    refine ist_bind (f := List.map f) ((ih (i + k)).eq ?_) fun as _ => ?_
    · congr 1
      apply List.map_congr_left
      intro j _
      simp only [Function.comp]
      congr 1
      rw [Nat.mul_succ]; omega
    · exact (ist_pure (List.map f) (a :: as)).post fun _ _ => trivial

/-- A loop over the rest of the parts. -/
theorem ist_whileNext {α β : Type} {p : TProg α} {f : α → β} {ps : List Node} {m : Node → Told β}
    (h : ∀ i n, nth ps i = some n → IsT (Pos ps i) p f (m n) (Pos ps i)) (i : Nat) :
    IsT (Pos ps i) (TProg.whileNext p) (List.map f) (Told.all ((ps.drop (i + 1)).map m)) (fun _ => True) := by
  have go : ∀ (fuel i : Nat), (ps.drop (i + 1)).length < fuel →
      IsT (Pos ps i) (TProg.whileNextGo p fuel) (List.map f) (Told.all ((ps.drop (i + 1)).map m)) (fun _ => True) := by
    intro fuel
    induction fuel with
    | zero => intro i h; omega
    | succ fuel ih =>
      intro i hl
      unfold TProg.whileNextGo
      cases hr : ps.drop (i + 1) with
      | nil =>
        intro c hc
        have h1 : Prog.next c = (.ok false, c) := by
          have : c.rest = [] := hc.2.trans hr
          simp [Prog.next, Cursor.next, this]
        rw [TProg.bind_def]
        simp only [TProg.quiet, h1]
        exact ⟨rfl, rfl, fun _ _ => trivial⟩
      | cons n ns =>
        obtain ⟨h2, h3⟩ := nth_succ_of_drop hr
        have hn : IsT (Pos ps i) (TProg.quiet Prog.next) id (Told.silent (.ok true)) (Pos ps (i + 1)) := by
          apply ist_quiet
          intro c hc
          have : c.rest = n :: ns := hc.2.trans hr
          refine ⟨by simp [Prog.next, Cursor.next, this], fun _ _ => hc.next⟩
        refine (ist_bind (h := fun _ => Told.all ((n :: ns).map m)) hn fun b hb => ?_).eq (Told.ext rfl rfl)
        have : b = true := by simpa [Told.silent] using hb.symm
        subst this
        simp only [if_true, List.map_cons, Told.all]
        refine ist_bind (h (i + 1) n h2) fun a _ => ?_
        have h4 : Told.all ((ps.drop (i + 1 + 1)).map m) = Told.all (ns.map m) := by rw [h3]
        refine ist_bind (f := List.map f) ((ih (i + 1) ?_).eq h4) fun as _ => ?_
        · rw [hr] at hl
          rw [show i + 1 + 1 = i + 2 from rfl, h3]
          simp only [List.length_cons] at hl
          omega
        · exact (ist_pure (List.map f) (a :: as)).post fun _ _ => trivial
  intro c hc
  exact go (c.rest.length + 1) i (by rw [hc.2]; omega) c hc

end Corda
