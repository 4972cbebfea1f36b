import Verif.Lemmas.InspectEnvelope
import Verif.Lemmas.BulkNames

/-
The listings of the types, one after each type read.
-/

namespace Corda
open Spec TProg

theorem _root_.Corda.Spec.Grows.trans {α : Type} {a b c : List (List α)} {bs cs : List (List (List α))} (h : Grows a bs b) (k : Grows b cs c) :
    Grows a (bs ++ cs) c := by
  induction h with
  | refl _ => exact k
  | step t hp _ ih => exact .step t hp (ih k)

/-- Whenever the program returns, this holds of what it returns and what it printed. -/
def Says {α : Type} (p : TProg α) (Q : α → List Str → Prop) : Prop := ∀ c a, (p c).1.1 = .ok a → Q a (p c).2

/-- More prints do not harm. -/
def Mono {α : Type} (Q : α → List Str → Prop) : Prop := ∀ a o o', Q a o → List.Sublist o o' → Q a o'

theorem says_bind {α β : Type} {p : TProg α} {f : α → TProg β} {Q : α → List Str → Prop} {W : β → List Str → Prop} (h : Says p Q)
    (k : ∀ a o, Q a o → Says (f a) (fun b o' => W b (o ++ o'))) : Says (p >>= f) W := by
  intro c b hb
  rw [TProg.bind_def] at hb ⊢
  have hq := h c
  revert hb hq
  rcases p c with ⟨⟨r, c'⟩, o⟩
  intro hb hq
  cases r with
  | ok a => exact k a o (hq a rfl) c' b hb
  | throw _ => exact nomatch hb
  | ub _ => exact nomatch hb

/-- What comes first does not matter. -/
theorem says_after {α β : Type} {p : TProg α} {f : α → TProg β} {W : β → List Str → Prop} (hm : Mono W) (k : ∀ a, Says (f a) W) :
    Says (p >>= f) W :=
  says_bind (Q := fun _ _ => True) (fun _ _ _ => trivial) fun a o _ c b hb => hm b _ _ (k a c b hb) (List.sublist_append_right _ _)

theorem says_pure {α : Type} {a : α} {Q : α → List Str → Prop} (h : Q a []) : Says (pure a) Q := by
  intro c b hb
  have : a = b := Res.ok.inj hb
  subst this
  exact h

theorem says_enter {α : Type} {p : TProg α} {nx : Bool} {Q : α → List Str → Prop} (h : Says p Q) : Says (autoEnter p nx) Q :=
  fun _ a ha => h _ a ha
theorem says_listEnter {α : Type} {p : Nat → TProg α} {nx : Bool} {Q : α → List Str → Prop} (h : ∀ n, Says (p n) Q) : Says (listEnter p nx) Q :=
  fun _ a ha => h _ _ a ha

theorem says_foldNextGo {σ : Type} {body : Nat → σ → TProg σ} {S : σ → σ → List Str → Prop} (h0 : ∀ s, S s s [])
    (ht : ∀ a b c o o', S a b o → S b c o' → S a c (o ++ o')) (hb : ∀ i s, Says (body i s) (S s)) (fuel : Nat) :
    ∀ i s, Says (foldNextGo body fuel i s) (S s) := by
  induction fuel with
  | zero => exact fun _ _ _ _ h => nomatch h
  | succ fuel ih =>
    intro i s
    unfold foldNextGo
    refine says_bind (Q := fun _ o => o = []) (fun _ _ _ => rfl) fun b o ho => ?_
    subst ho
    cases b with
    | false => exact says_pure (h0 s)
    | true => exact says_bind (hb i s) fun s' o hs c s'' hc => ht _ _ _ _ _ (h0 s) (ht _ _ _ _ _ hs (ih (i + 1) s' c s'' hc))

theorem says_foldNext {σ : Type} {body : Nat → σ → TProg σ} {S : σ → σ → List Str → Prop} (h0 : ∀ s, S s s [])
    (ht : ∀ a b c o o', S a b o → S b c o' → S a c (o ++ o')) (hb : ∀ i s, Says (body i s) (S s)) (s : σ) : Says (foldNext body s) (S s) :=
  fun c a ha => says_foldNextGo h0 ht hb _ 1 s c a ha

/-- From the one state to the other, with a listing after each type. -/
def Listed (p : Paths) (a b : List (List TypeNotation)) (o : List Str) : Prop := ∃ bs, Grows a bs b ∧ (bs.map (listing p)).Sublist o

theorem insert_perm {ls ls' : List (List TypeNotation)} {t : TypeNotation} (h : insertR TypeNotation.dependsOn ls t = .ok ls') :
    ls'.flatten.Perm (t :: ls.flatten) := by
  have ha : Answers (plain TypeNotation.dependsOn) := by
    intro a b
    unfold plain
    cases hd : a.dependsOn b with
    | ok n => exact Props.dependsOn_answers a b n hd
    | throw m => simp
    | ub m => simp
  exact insGo_perm _ ha _ _ _ _ (insGoR_ok _ _ _ _ h)

theorem says_schemaStep (p : Paths) (rec : TProg Element) (ls : List (List TypeNotation)) : Says (schemaStep p rec ls) (Listed p ls) := by
  have hm : Mono (Listed p ls) := fun a o o' ⟨bs, hg, hs⟩ h => ⟨bs, hg, hs.trans h⟩
  unfold schemaStep
  refine says_after hm fun e => says_after hm fun t => ?_
  refine says_bind (Q := fun ls' _ => insertR TypeNotation.dependsOn ls t = .ok ls') (fun c a ha => ?_) fun ls' o hi => ?_
  · rw [← Telling.res_insertType p]
    exact ha
  · refine says_bind (Q := fun _ o => o = [listing p ls']) (fun _ _ _ => rfl) fun _ o' ho => ?_
    subst ho
    refine says_pure ⟨[ls'], .step t (insert_perm hi) (.refl _), ?_⟩
    rw [List.append_nil]
    exact List.sublist_append_right _ _

/-- What was printed while the schema was read. -/
def ToldSchema (p : Paths) (s : Schema) (o : List Str) : Prop :=
  ∃ bs o1 o2 o3, Grows [] bs s.types ∧ (bs.map (listing p)).Sublist o1 ∧
    o = o1 ++ o2 ++ o3 ∧ o2 = s.types.flatten.map fun t => traceLine (p .schema) 47 ("Schema: ".toList ++ t.descriptor ++ " ".toList ++ t.name)

/-- The same of an element, if it has a schema. -/
def ToldElement (p : Paths) : Element → List Str → Prop
  | .schema s, o => ToldSchema p s o
  | .envelope s _, o => ToldSchema p s o
  | _, _ => True

theorem ToldSchema.around {p : Paths} {s : Schema} {o : List Str} (a b : List Str) (h : ToldSchema p s o) : ToldSchema p s (a ++ o ++ b) := by
  obtain ⟨bs, o1, o2, o3, hg, hs, rfl, h2⟩ := h
  exact ⟨bs, a ++ o1, o2, o3 ++ b, hg, hs.trans (List.sublist_append_right _ _), by simp only [List.append_assoc], h2⟩

theorem ToldElement.around {p : Paths} {e : Element} {o : List Str} (a b : List Str) (h : ToldElement p e o) : ToldElement p e (a ++ o ++ b) := by
  cases e with
  | schema s => exact ToldSchema.around a b h
  | envelope s _ => exact ToldSchema.around a b h
  | _ => trivial

theorem told_before {α : Type} {p : Paths} {q : TProg α} {f : α → TProg Element} (k : ∀ a, Says (f a) (ToldElement p)) :
    Says (q >>= f) (ToldElement p) :=
  says_bind (Q := fun _ _ => True) (fun _ _ _ => trivial) fun a o _ c b hb => by
    have := (k a c b hb).around o []
    rwa [List.append_nil] at this

theorem told_schemaBuild (p : Paths) (rec : TProg Element) : Says (schemaBuild p rec) (ToldElement p) := by
  have h0 : ∀ s, Listed p s s [] := fun s => ⟨[], .refl _, List.Sublist.slnil⟩
  have ht : ∀ a b c o o', Listed p a b o → Listed p b c o' → Listed p a c (o ++ o') := fun a b c o o' ⟨bs, g, h⟩ ⟨cs, g', h'⟩ =>
    ⟨bs ++ cs, g.trans g', by rw [List.map_append]; exact h.append h'⟩
  unfold schemaBuild
  refine told_before fun _ => told_before fun _ => ?_
  refine says_bind (Q := Listed p []) (says_listEnter fun n => says_foldNext h0 ht (fun i ls => ?_) []) fun ls o ⟨bs, hg, hs⟩ => ?_
  · exact says_after (fun a o o' ⟨bs, hg, hs⟩ h => ⟨bs, hg, hs.trans h⟩) fun _ =>
      says_listEnter fun _ => says_foldNext h0 ht (fun _ ls => says_schemaStep p rec ls) ls
  · refine says_bind (Q := fun s o => s = Schema.make ls ∧ o = ls.flatten.map fun t =>
      traceLine (p .schema) 47 ("Schema: ".toList ++ t.descriptor ++ " ".toList ++ t.name)) (fun c s h => ⟨(Res.ok.inj h).symm, rfl⟩) fun s o2 hs2 => ?_
    obtain ⟨rfl, h2⟩ := hs2
    rw [← Props.schema_make_types ls] at hg h2
    exact says_pure ⟨bs, o, o2, [], hg, hs, by simp, h2⟩

theorem told_envelopeBuild (p : Paths) {rec : TProg Element} (h : Says rec (ToldElement p)) : Says (envelopeBuild p rec) (ToldElement p) := by
  unfold envelopeBuild
  refine told_before fun _ => told_before fun _ => says_enter ?_
  unfold envelopeBody
  refine told_before fun _ => told_before fun _ => ?_
  refine says_bind h fun e o he => ?_
  cases e with
  | schema s =>
    refine says_bind (Q := fun s' _ => s' = s) (fun c s' hs => (Res.ok.inj hs).symm) fun s' o' hs' => ?_
    subst hs'
    refine says_bind (Q := fun _ _ => True) (fun _ _ _ => trivial) fun _ o'' _ => says_pure ?_
    have := ToldSchema.around [] (o' ++ (o'' ++ [])) he
    simp only [List.nil_append, List.append_assoc] at this
    exact this
  | _ => exact says_bind (Q := fun _ _ => False) (fun c s hs => nomatch hs) fun _ _ hf => hf.elim

/-- Neither a schema nor an envelope. -/
def Schemaless : Element → Prop
  | .schema _ => False
  | .envelope _ _ => False
  | _ => True

theorem plain_before {α : Type} {q : TProg α} {f : α → TProg Element} (k : ∀ a, Says (f a) (fun e _ => Schemaless e)) :
    Says (q >>= f) (fun e _ => Schemaless e) := says_after (fun _ _ _ h _ => h) k

theorem says_build (p : Paths) {rec : TProg Element} {Q : Element → List Str → Prop} (hq : ∀ e o, Schemaless e → Q e o)
    (he : Says (envelopeBuild p rec) Q) (hs : Says (schemaBuild p rec) Q) (id : Nat) : Says (build p rec id) Q := by
  have lift : ∀ {q : TProg Element}, Says q (fun e _ => Schemaless e) → Says q Q := fun h c a ha => hq a _ (h c a ha)
  have hn : ∀ k l w, Says (nullBuild p k l w) (fun e _ => Schemaless e) := fun k l w => plain_before fun _ => plain_before fun _ => says_pure trivial
  unfold build
  by_cases h1 : id = 22
  · rw [if_pos h1]; exact fun _ _ hx => nomatch hx
  rw [if_neg h1]
  by_cases h2 : id = descId ENVELOPE
  · rw [if_pos h2]; exact he
  rw [if_neg h2]
  by_cases h3 : id = descId SCHEMA
  · rw [if_pos h3]; exact hs
  rw [if_neg h3]
  by_cases h4 : id = descId OBJECT
  · rw [if_pos h4]
    refine lift ?_
    refine plain_before fun _ => ?_
    rw [show (quiet Prog.objectBuild : TProg Element) = (quiet (Prog.validateAndNext OBJECT) >>= fun _ => autoEnter (quiet
      (Prog.getSymbol >>= fun s => pure (.descriptor s)))) from toldQuiet_bind _ _]
    refine plain_before fun _ => says_enter ?_
    rw [toldQuiet_bind]
    exact plain_before fun s => says_pure (a := Element.descriptor s) trivial
  rw [if_neg h4]
  by_cases h5 : id = descId FIELD
  · rw [if_pos h5]
    refine lift ?_
    refine plain_before fun _ => plain_before fun _ => says_enter ?_
    unfold fieldBody
    repeat (first | exact says_pure trivial | refine plain_before fun _ => ?_)
  rw [if_neg h5]
  by_cases h6 : id = descId COMPOSITE_TYPE
  · rw [if_pos h6]
    refine lift ?_
    refine plain_before fun _ => plain_before fun _ => says_enter ?_
    unfold compositeBody
    repeat (first | exact says_pure trivial | refine plain_before fun _ => ?_)
  rw [if_neg h6]
  by_cases h7 : id = descId RESTRICTED_TYPE
  · rw [if_pos h7]
    refine lift ?_
    refine plain_before fun _ => plain_before fun _ => says_enter ?_
    unfold restrictedBody
    repeat (first | exact says_pure trivial | refine plain_before fun _ => ?_)
  rw [if_neg h7]
  by_cases h8 : id = descId CHOICE
  · rw [if_pos h8]
    refine lift ?_
    rw [show (quiet Prog.choiceBuild : TProg Element) = (quiet (Prog.validateAndNext CHOICE) >>= fun _ => autoEnter (quiet
      (Prog.getString false >>= fun s => pure (.choice s)))) from toldQuiet_bind _ _]
    refine plain_before fun _ => says_enter ?_
    rw [toldQuiet_bind]
    exact plain_before fun s => says_pure (a := Element.choice s) trivial
  rw [if_neg h8]
  by_cases h9 : id = descId REFERENCED_OBJECT
  · rw [if_pos h9]; exact lift (hn _ _ _)
  rw [if_neg h9]
  by_cases h10 : id = descId TRANSFORM_SCHEMA
  · rw [if_pos h10]; exact lift (hn _ _ _)
  rw [if_neg h10]
  by_cases h11 : id = descId TRANSFORM_ELEMENT
  · rw [if_pos h11]; exact lift (hn _ _ _)
  rw [if_neg h11]
  by_cases h12 : id = descId TRANSFORM_ELEMENT_KEY
  · rw [if_pos h12]; exact lift (hn _ _ _)
  rw [if_neg h12]
  exact fun _ _ hx => nomatch hx

theorem told_build (p : Paths) {rec : TProg Element} (h : Says rec (ToldElement p)) (id : Nat) : Says (build p rec id) (ToldElement p) :=
  says_build p (fun e _ he => by cases e <;> first | exact he.elim | trivial) (told_envelopeBuild p h) (told_schemaBuild p rec) id

theorem told_dispatch (p : Paths) : ∀ k, Says (dispatch p k) (ToldElement p)
  | 0 => fun _ _ h => nomatch h
  | k + 1 => by
    have e : dispatch p (k + 1) = (quiet Prog.attestDescribed >>= fun _ => autoEnter (dispatchBody p (dispatch p k))) := rfl
    rw [e]
    exact told_before fun _ => says_enter (told_before fun _ => told_before fun id => told_build p (told_dispatch p k) id)

/-- What a successful reading of the envelope printed. -/
theorem told_readEnvelope (p : Paths) : Says (readEnvelope p) (fun x o => ToldSchema p x.1 o) := by
  have hm : ∀ {q : TProg Element} , Says q (ToldElement p) → Says (q >>= fun e => match e with
      | .envelope s o => pure (s, o)
      | _ => quiet (Prog.ub "null envelope") : TProg (Schema × Str)) (fun x o => ToldSchema p x.1 o) := fun {q} hq => by
    refine says_bind hq fun e o he => ?_
    cases e with
    | envelope s w => exact says_pure (by rw [List.append_nil]; exact he)
    | _ => exact fun _ _ h => nomatch h
  intro c a ha
  have hk : Says (fun c' => (do
    let d ← quiet Prog.isDescribed
    if d then do
      let e ← autoEnter (do
        let id ← quiet (Prog.look Prog.getUlong)
        build p (dispatch p c.fuel) id)
      match e with
      | .envelope s o => pure (s, o)
      | _ => quiet (Prog.ub "null envelope")
    else quiet (Prog.ub "null envelope") : TProg (Schema × Str)) c') (fun x o => ToldSchema p x.1 o) := by
    refine says_bind (Q := fun _ o => o = []) (fun _ _ _ => rfl) fun b o ho => ?_
    subst ho
    cases b with
    | false => exact fun _ _ h => nomatch h
    | true =>
      exact hm (says_enter (told_before fun id => told_build p (told_dispatch p _) id))
  exact hk c a ha

/-! ### Making the readers -/

theorem process_bind {α β : Type} (q : TFProg α) (f : α → TFProg β) (F : Factory) : (q >>= f) F = TFProg.bind q f F := rfl

theorem told_processOne (p : Paths) (names : Nat → Str) (lf : Bool) (t : TypeNotation) (F : Factory) :
    [traceLine (p .factory) 108 ("process::".toList ++ t.name)].Sublist (TFProg.processOne p names lf t F).2 := by
  have h1 : [traceLine (p .factory) 108 ("process::".toList ++ t.name)].Sublist (TFProg.processType p names lf t F).2 :=
    List.sublist_append_left _ _
  unfold TFProg.processOne
  rw [process_bind]
  unfold TFProg.bind
  revert h1
  rcases TFProg.processType p names lf t F with ⟨⟨r, F'⟩, o⟩
  intro h1
  cases r with
  | ok i => exact h1.trans (List.sublist_append_left _ _)
  | throw _ => exact h1
  | ub _ => exact h1

theorem told_processAll (p : Paths) (names : Nat → Str) (lf : Bool) : ∀ (ts : List TypeNotation) (F : Factory),
    (TFProg.processAll p names lf ts F).1.1 = .ok () →
    (ts.map fun t => traceLine (p .factory) 108 ("process::".toList ++ t.name)).Sublist (TFProg.processAll p names lf ts F).2
  | [], _, _ => List.Sublist.slnil
  | t :: ts, F, h => by
    have ih := told_processAll p names lf ts
    have h1 := told_processOne p names lf t F
    unfold TFProg.processAll at h ⊢
    rw [process_bind] at h ⊢
    unfold TFProg.bind at h ⊢
    revert h1 h
    rcases TFProg.processOne p names lf t F with ⟨⟨r, F'⟩, o⟩
    intro h1 h
    cases r with
    | ok i => exact h1.append (ih F' h)
    | throw _ => exact nomatch h
    | ub _ => exact nomatch h

/-! ### How much the listings print -/

theorem grows_count {α : Type} {a c : List (List α)} {bs : List (List (List α))} (h : Grows a bs c) :
    c.flatten.length = a.flatten.length + bs.length ∧
    2 * (bs.map fun b => b.flatten.length).sum + a.flatten.length * (a.flatten.length + 1) = c.flatten.length * (c.flatten.length + 1) := by
  induction h with
  | refl _ => simp
  | @step a b c bs t hp _ ih =>
    obtain ⟨h1, h2⟩ := ih
    have hl : b.flatten.length = a.flatten.length + 1 := by rw [hp.length_eq]; rfl
    refine ⟨by rw [h1, hl]; simp only [List.length_cons]; omega, ?_⟩
    rw [← h2, List.map_cons, List.sum_cons, hl]
    generalize a.flatten.length = x
    generalize (bs.map fun b => b.flatten.length).sum = y
    have : (x + 1) * (x + 1 + 1) = x * (x + 1) + 2 * (x + 1) := by
      rw [Nat.mul_comm (x + 1) (x + 1 + 1), ← Nat.add_mul, Nat.add_assoc]
    omega

theorem printLevelsFrom_length : ∀ (i : Nat) (ls : List (List Str)), 7 * ls.flatten.length ≤ (printLevelsFrom i ls).length
  | _, [] => by simp
  | i, l :: ls => by
    have ih := printLevelsFrom_length (i + 1) ls
    have hl : ∀ l : List Str, 7 * l.length ≤ (l.flatMap fun n => bulletWord ++ n ++ ['\n']).length := by
      intro l
      induction l with
      | nil => simp
      | cons n l ih =>
        have : bulletWord.length = 6 := by decide
        simp only [List.flatMap_cons, List.length_append, List.length_cons, List.length_nil] at ih ⊢
        omega
    have := hl l
    simp only [printLevelsFrom, printLevel, List.flatten_cons, List.length_append, List.length_cons, List.length_nil] at ih this ⊢
    omega

theorem listing_length (p : Paths) (b : List (List TypeNotation)) : 7 * b.flatten.length ≤ (listing p b).length := by
  have h := printLevelsFrom_length 0 (b.map (List.map TypeNotation.name))
  have e : (b.map (List.map TypeNotation.name)).flatten.length = b.flatten.length := by
    rw [← List.map_flatten, List.length_map]
  rw [e] at h
  unfold listing traceLine printLevels
  simp only [List.length_append]
  omega

theorem listings_length (p : Paths) : ∀ bs : List (List (List TypeNotation)),
    7 * (bs.map fun b => b.flatten.length).sum ≤ (bs.map (listing p)).flatten.length
  | [] => by simp
  | b :: bs => by
    have h1 := listing_length p b
    have h2 := listings_length p bs
    simp only [List.map_cons, List.sum_cons, List.flatten_cons, List.length_append]
    omega

theorem sublist_flatten_length {a b : List Str} (h : a.Sublist b) : a.flatten.length ≤ b.flatten.length := by
  induction h with
  | slnil => exact Nat.le_refl _
  | cons x _ ih => simp only [List.flatten_cons, List.length_append]; omega
  | cons_cons x _ ih => simp only [List.flatten_cons, List.length_append]; omega

theorem toldSchema_length {p : Paths} {s : Schema} {o : List Str} (h : ToldSchema p s o) :
    7 * (s.types.flatten.length * (s.types.flatten.length + 1)) ≤ 2 * o.flatten.length := by
  obtain ⟨bs, o1, o2, o3, hg, hs, rfl, -⟩ := h
  obtain ⟨-, h2⟩ := grows_count hg
  simp only [List.flatten_nil, List.length_nil, Nat.zero_mul, Nat.add_zero] at h2
  have h3 := listings_length p bs
  have h4 := sublist_flatten_length hs
  rw [← h2]
  simp only [List.flatten_append, List.length_append]
  omega

/-! ### The first line -/

/-- An envelope announces itself. -/
def Announced (p : Paths) : Element → List Str → Prop
  | .envelope _ _, o => ∃ t, o = traceLine (p .envelopeDescriptor) 106 "ENVELOPE".toList :: t
  | _, _ => True

theorem announced_build (p : Paths) (rec : TProg Element) (id : Nat) : Says (build p rec id) (Announced p) := by
  refine says_build p (fun e _ he => by cases e <;> first | exact he.elim | trivial) ?_ ?_ id
  · unfold envelopeBuild
    refine says_bind (Q := fun _ o => o = [traceLine (p .envelopeDescriptor) 106 "ENVELOPE".toList]) (fun _ _ _ => rfl) fun _ o ho c e _ => ?_
    subst ho
    cases e with
    | envelope _ _ => exact ⟨_, rfl⟩
    | _ => trivial
  · unfold schemaBuild
    have hm : Mono (fun (e : Element) (_ : List Str) => ∃ s, e = .schema s) := fun _ _ _ h _ => h
    have h : Says (schemaBuild p rec) (fun e _ => ∃ s, e = .schema s) := by
      unfold schemaBuild
      exact says_after hm fun _ => says_after hm fun _ => says_after hm fun _ => says_after hm fun s => says_pure ⟨s, rfl⟩
    intro c e he
    obtain ⟨s, rfl⟩ := h c e he
    trivial

theorem announced_readEnvelope (p : Paths) :
    Says (readEnvelope p) (fun _ o => ∃ t, o = traceLine (p .envelopeDescriptor) 106 "ENVELOPE".toList :: t) := by
  intro c a ha
  have hk : Says (fun c' => (do
    let d ← quiet Prog.isDescribed
    if d then do
      let e ← autoEnter (do
        let id ← quiet (Prog.look Prog.getUlong)
        build p (dispatch p c.fuel) id)
      match e with
      | .envelope s o => pure (s, o)
      | _ => quiet (Prog.ub "null envelope")
    else quiet (Prog.ub "null envelope") : TProg (Schema × Str)) c')
      (fun _ o => ∃ t, o = traceLine (p .envelopeDescriptor) 106 "ENVELOPE".toList :: t) := by
    refine says_bind (Q := fun _ o => o = []) (fun _ _ _ => rfl) fun b o ho => ?_
    subst ho
    cases b with
    | false => exact fun _ _ h => nomatch h
    | true =>
      refine says_bind (Q := Announced p) (says_enter ?_) fun e o he => ?_
      · refine says_bind (Q := fun _ o => o = []) (fun _ _ _ => rfl) fun id o ho => ?_
        subst ho
        exact announced_build p _ id
      · cases e with
        | envelope s w =>
          obtain ⟨t, rfl⟩ := he
          exact says_pure ⟨_, rfl⟩
        | _ => exact fun _ _ h => nomatch h
  exact hk c a ha

end Corda
