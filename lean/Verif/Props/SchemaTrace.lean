import Verif.Lemmas.SchemaTrace

/-
C99: what is printed while a schema is dumped.
-/

namespace Corda.Props
open Corda Prog Spec

/-- The same names. -/
def speakers (f : SchemaFiles) : Speakers := ⟨f.wrapper, f.descriptor, f.envelope, f.schema, f.composite, f.object⟩

private theorem yep_line (f : SchemaFiles) : TProg.dbg f.wrapper 299 "YEP! it's a list".toList = TProg.print (yepLine (speakers f)) := by
  unfold TProg.dbg yepLine
  rw [show natStr 299 = "299".toList by decide]
  simp only [List.append_assoc]; rfl

private theorem descriptor_line (f : SchemaFiles) :
    TProg.dbg f.descriptor 136 "readAvro::Descriptor".toList = TProg.print (descriptorLine (speakers f)) := by
  unfold TProg.dbg descriptorLine
  rw [show natStr 136 = "136".toList by decide]
  simp only [List.append_assoc]; rfl

private theorem envelope_line (f : SchemaFiles) :
    TProg.dbg f.envelope 76 "readAvro::Envelope".toList = TProg.print (envelopeLine (speakers f)) := by
  unfold TProg.dbg envelopeLine
  rw [show natStr 76 = "76".toList by decide]
  simp only [List.append_assoc]; rfl

private theorem schema_line (f : SchemaFiles) : TProg.dbg f.schema 108 "readAvro::Schema".toList = TProg.print (schemaLine (speakers f)) := by
  unfold TProg.dbg schemaLine
  rw [show natStr 108 = "108".toList by decide]
  simp only [List.append_assoc]; rfl

private theorem composite_line (f : SchemaFiles) :
    TProg.dbg f.composite 165 "readAvro::Composite".toList = TProg.print (compositeLine (speakers f)) := by
  unfold TProg.dbg compositeLine
  rw [show natStr 165 = "165".toList by decide]
  simp only [List.append_assoc]; rfl

private theorem object_line (f : SchemaFiles) : TProg.dbg f.object 77 "readAvro::Object".toList = TProg.print (objectLine (speakers f)) := by
  unfold TProg.dbg objectLine
  rw [show natStr 77 = "77".toList by decide]
  simp only [List.append_assoc]; rfl

private theorem attestString_false : (attestString false : Prog Unit) = pure () := by
  funext c
  unfold attestString
  by_cases h : c.type = .string <;> simp [h] <;> rfl

private theorem quiet_pure {α β : Type} (a : α) (k : α → TProg β) : (TProg.quiet (pure a : Prog α) >>= k) = k a := by
  funext c
  rw [TProg.bind_def]
  rfl

private theorem ist_text {γ δ : Type} {b : Bool} {ps : List Node} {i : Nat} {k : Str → TProg γ} {g : γ → δ} {r : Told δ} {Q : Cursor → Prop}
    (h : ∀ s, wordAt b (nth ps i) = .ok s → IsT (Pos ps (i + 1)) (k s) g r Q) :
    IsT (Pos ps i) (TProg.readText b >>= k) g (do
      Told.line textLine
      quietly (wordAt b (nth ps i))
      r) Q := by
  have key : IsT (Pos ps i) (TProg.readText b) id (do
      Told.line textLine
      Told.silent (wordAt b (nth ps i))) (Pos ps (i + 1)) := by
    unfold TProg.readText
    exact ist_line rfl (ist_quiet (is_word b))
  refine (ist_bind (h := fun _ => r) key fun s hs => h s ?_).eq ?_
  · cases hw : wordAt b (nth ps i) with
    | ok x => rw [hw] at hs; exact hs
    | throw x => rw [hw] at hs; cases hs
    | ub x => rw [hw] at hs; cases hs
  · rw [Told.bind_assoc]
    congr 1
    funext _
    cases wordAt b (nth ps i) <;> rfl

private theorem ist_quietly {α β γ δ : Type} {P Q R : Cursor → Prop} {p : Prog α} {f : α → β} {x : Res β} {k : α → TProg γ} {g : γ → δ} {r : Told δ}
    (hp : Is P p f x Q) (h : ∀ a, x = .ok (f a) → IsT Q (k a) g r R) : IsT P (TProg.quiet p >>= k) g (do
      quietly x
      r) R := by
  refine (ist_bind (h := fun _ => r) (ist_quiet hp) fun a ha => h a ha).eq ?_
  cases x <;> rfl

private theorem ist_last {α : Type} {P Q : Cursor → Prop} {p : TProg α} {r : Told Unit} (h : IsT P p blank r Q) {β : Type} (w : α → β) :
    IsT P (p >>= fun x => pure (w x)) blank r (fun _ => True) := by
  refine (ist_bind (h := fun _ => pure ()) h fun a _ => (ist_pure blank (w a)).post fun _ _ => trivial).eq ?_
  exact Told.bind_pure r

private theorem unit_bind {α : Type} (r : Told Unit) (k : Told α) : (r >>= fun _ => k) = (do r; k) := rfl

private theorem is_strings' {ps : List Node} {i : Nat} (hne : ps ≠ []) (g : Str → Str) :
    Is (Pos ps i) (autoListEnter (fun _ => Prog.forNext (fun _ => do
      let s ← getString
      pure (g s)))) blank ((fun _ => ()) <$> eachOf (stringAt false) (nth ps i)) (Pos ps i) := by
  rw [← numberedOf_const]
  have h : Is (Pos ps i) (autoListEnter (fun _ => Prog.forNext (fun _ => do
      let s ← getString
      pure (g s)))) id ((fun ss => ss.flatMap g) <$> numberedOf (fun _ => stringAt false) (nth ps i)) (Pos ps i) :=
    is_forNext (f := fun _ _ => stringAt false) hne
      (fun _ _ => (scoped_bind (scoped_getString _) fun _ => scoped_pure _).on) fun n i c m hm => by
        rw [bind_def, string_here c m hm]
        cases stringAt false (some m) <;> rfl
  refine (h.map blank).eq ?_
  cases numberedOf (fun _ => stringAt false) (nth ps i) <;> rfl

private theorem quietly_unit {α : Type} (r : Res α) : quietly ((fun _ => ()) <$> r) = quietly r := by cases r <;> rfl

section
variable {f : SchemaFiles} {base : Str → TProg Str} {rec : Saying} {P : Node → Prop}

private theorem ist_element (h : ∀ ai, Speaks P (base ai) rec) (ai : Str) {ps : List Node} {i : Nat} (hp : ∀ n ∈ ps, P n) :
    IsT (Pos ps i) (TProg.byType (base ai)) blank (elementSaid rec (nth ps i)) (Pos ps i) := by
  cases hn : nth ps i with
  | none =>
    intro c hc
    have hx : c.cur = none := hc.1.trans hn
    unfold TProg.byType
    rw [TProg.bind_def]
    simp only [TProg.quiet, show look Cursor.type c = (.ok c.type, c) from rfl, Cursor.type, hx]
    exact ⟨rfl, rfl, fun _ h => by cases h⟩
  | some n =>
    rw [← hn]
    exact ist_speaks (speaks_byType (h ai)) hn (hp n (nth_mem hn))

private theorem ist_elements (h : ∀ ai, Speaks P (base ai) rec) (ai : Str) (w : Nat → Nat → Str → Str) {ps : List Node} {i : Nat} (hne : ps ≠ [])
    (hp : ∀ n ∈ ps, ∀ k ∈ n.kids, P k) :
    IsT (Pos ps i) (TProg.listEnter fun l => TProg.forNext fun j => TProg.byType (base ai) >>= fun x => pure (w l j x)) blank
      (eachSaid (elementSaid rec) (nth ps i)) (fun _ => True) := by
  obtain ⟨n, hn⟩ := nth_isSome i hne
  exact ist_each (fun l j => speaks_map (speaks_byType (h ai)) (w l j)) hn (hp n (nth_mem hn))

private theorem ist_composite (h : ∀ ai, Speaks P (base ai) rec) (ai : Str) {ps : List Node} (hp : ∀ n ∈ ps, P n)
    (hp' : ∀ n ∈ ps, ∀ k ∈ n.kids, P k) :
    IsT (Pos ps 0) (do
      TProg.quiet Prog.attestString
      let name ← TProg.readText
      TProg.quiet Prog.attestString
      let label ← TProg.readText true
      TProg.attestIsList f
      let provides ← TProg.quiet (Prog.autoListEnter (fun _ => Prog.forNext (fun _ => do
        let s ← Prog.getString
        pure (ai ++ s ++ dBlank))))
      let _ ← TProg.quiet Prog.next
      TProg.quiet Prog.attestDescribed
      let desc ← TProg.autoNext (TProg.byType (base (deeper ai)))
      let fields ← TProg.listEnter (fun n => TProg.forNext (fun i => do
        let x ← TProg.byType (base (deeper (deeper ai)))
        pure (deeper ai ++ natStr i ++ dSlash ++ natStr n ++ dClose ++ nl ++ x)))
      pure (ai ++ dComp1 ++ name ++ nl ++ ai ++ dComp2 ++ label ++ dQuote ++ nl ++ ai ++ dProvides ++ provides ++ dClose ++ nl
        ++ ai ++ dComp4 ++ nl ++ desc ++ ai ++ dComp5 ++ nl ++ fields) : TProg Str)
      blank (compositeSaid (speakers f) rec ps) (fun _ => True) := by
  unfold compositeSaid
  rw [attestString_false, quiet_pure]
  refine ist_text fun name hn => ?_
  have hne := word_ne hn
  rw [quiet_pure]
  refine ist_text fun label _ => ?_
  refine ist_attest (yep_line f) fun _ => ?_
  rw [← quietly_unit (eachOf _ _)]
  refine ist_quietly (is_strings' hne _) fun prov _ => ist_step ?_
  refine ist_quietly is_attestDescribed fun _ hd => ?_
  have he : elementSaid rec (nth ps 3) = rec (nth ps 3) := by
    unfold elementSaid
    rw [described_some hd]; rfl
  refine ist_bind (h := fun _ => eachSaid (elementSaid rec) (nth ps 4)) (ist_autoNext ((ist_element h (deeper ai) hp).eq he)) fun desc _ => ?_
  exact ist_last (ist_elements h _ (fun n i x => deeper ai ++ natStr i ++ dSlash ++ natStr n ++ dClose ++ nl ++ x) hne hp') _

private theorem ist_restricted (h : ∀ ai, Speaks P (base ai) rec) (ai : Str) {ps : List Node} (hp : ∀ n ∈ ps, P n) :
    IsT (Pos ps 0) (do
      let name ← TProg.readText
      let label ← TProg.readText true
      let provides ← TProg.quiet (Prog.autoListEnter (fun _ => Prog.forNext (fun _ => do
        let s ← Prog.getString
        pure (s ++ dBlank))))
      let _ ← TProg.quiet Prog.next
      let source ← TProg.readText
      let desc ← TProg.autoNext (TProg.byType (base (deeper ai)))
      pure (ai ++ dRestr1 ++ name ++ nl ++ ai ++ dRestr2 ++ label ++ nl ++ ai ++ dProvides ++ provides ++ dClose ++ nl
        ++ ai ++ dRestr4 ++ source ++ nl ++ ai ++ dRestr5 ++ nl ++ desc) : TProg Str)
      blank (restrictedSaid rec ps) (fun _ => True) := by
  unfold restrictedSaid
  refine ist_text fun name hn => ?_
  have hne := word_ne hn
  refine ist_text fun label _ => ?_
  rw [← quietly_unit (eachOf _ _)]
  refine ist_quietly (is_strings' hne _) fun prov _ => ist_step ?_
  refine ist_text fun source _ => ?_
  exact ist_last (ist_autoNext (ist_element h (deeper ai) hp)) _

/-- One of the lists of types. -/
private theorem speaks_types (hs : ∀ ai, ScopedOn (base ai).erase) (h : ∀ ai, Speaks P (base ai) rec) (hP : ∀ m, P m → ∀ x ∈ m.kids, P x)
    (ai : Str) (w : Nat → Nat → Str → Str) (v : Nat → Str → Str) :
    Speaks P (do
      TProg.attestIsList f
      TProg.listEnter (fun m => do
        let ts ← TProg.forNext (fun j => do
          let t ← TProg.byType (base ai)
          pure (w m j t))
        pure (v m ts)) : TProg Str) (fun m => do
      quietly (listParts m)
      Told.line (yepLine (speakers f))
      eachSaid (elementSaid rec) m) := by
  intro c n hc hn
  have h0 : nth (n :: c.rest) 0 = some n := by simp [nth]
  have hpos : Pos (n :: c.rest) 0 c := ⟨hc.trans h0.symm, rfl⟩
  have hcur : (TProg.attestIsList f >>= fun _ => TProg.listEnter (fun m => do
        let ts ← TProg.forNext (fun j => do
          let t ← TProg.byType (base ai)
          pure (w m j t))
        pure (v m ts)) : TProg Str).erase c = (((TProg.attestIsList f >>= fun _ => TProg.listEnter (fun m => do
        let ts ← TProg.forNext (fun j => do
          let t ← TProg.byType (base ai)
          pure (w m j t))
        pure (v m ts)) : TProg Str).erase c).1, c) := by
    simp only [TProg.erase_bind, TProg.erase_attestIsList, TProg.erase_listEnter, TProg.erase_forNext, TProg.erase_byType, TProg.erase_pure]
    by_cases hl : c.type = .list
    · rw [bind_of_ok (show attestList c = (.ok (), c) from attest_ok hl)]
      rw [autoListEnter_eq (fun n => scoped_bind (scoped_forNext fun _ => (scoped_bind (scoped_byType (hs _)) fun _ => scoped_pure _).on)
        fun _ => scoped_pure _) (by rw [hc]; rfl)]
    · rw [bind_of_throw (show attestList c = (.throw "Expected a List", c) from attest_no hl)]
  have key := ist_attest (f := f) (yep_line f) (ks := n :: c.rest) (i := 0) fun _ =>
    ist_eachAround (fun l j => speaks_map (speaks_byType (h ai)) (w l j)) v h0 (hP n hn)
  rw [h0] at key
  obtain ⟨h1, h2, -⟩ := key c hpos
  exact ⟨h1, h2, congrArg Prod.snd hcur⟩

private theorem ist_object (ai : Str) {ps : List Node} :
    IsT (Pos ps 0) (do
      let s ← TProg.quiet (Prog.autoNext Prog.getSymbol)
      let d ← TProg.quiet (Prog.look Cursor.shown)
      pure (deeper ai ++ dObj1 ++ s ++ nl ++ deeper ai ++ dObj2 ++ d ++ nl) : TProg Str) blank (quietly (symbolOf (nth ps 0))) (fun _ => True) := by
  refine (ist_quietly (r := pure ()) (is_autoNext is_getSymbol) fun s _ => ?_).eq (Told.bind_pure _)
  intro c _
  exact ⟨rfl, rfl, fun _ _ => trivial⟩

private theorem is_requires (ai : Str) {ps : List Node} {i : Nat} (hne : ps ≠ []) :
    Is (Pos ps i) (rawRequires ai) blank ((fun _ => ()) <$> eachOf (stringAt false) (nth ps i)) (Pos ps i) := by
  have h : Is (Pos ps i) (rawRequires ai) id
      ((fun ss => ai ++ dField3 ++ natStr (listElements (nth ps i)).length ++ nl ++ ss.flatMap fun s => deeper ai ++ s ++ nl)
        <$> eachOf (stringAt false) (nth ps i)) (Pos ps i) := by
    rw [← numberedOf_const]
    refine is_here fun c hc => ?_
    obtain ⟨m, hm⟩ := nth_isSome i hne
    rw [hm] at hc ⊢
    unfold rawRequires
    refine forNext_around (f := fun _ _ => stringAt false) (w := fun n t => ai ++ dField3 ++ natStr n ++ nl ++ t)
      (fun _ _ => (scoped_bind (scoped_getString _) fun _ => scoped_pure _).on) (fun n i c m hm => ?_) hc
    rw [bind_def, string_here c m hm]
    cases stringAt false (some m) <;> rfl
  refine (h.map blank).eq ?_
  cases eachOf (stringAt false) (nth ps i) <;> rfl

private theorem is_default {ps : List Node} {i : Nat} :
    Is (Pos ps i) (attestString true) blank ((fun _ => ()) <$> stringAt true (nth ps i)) (Pos ps i) := by
  intro c hc
  have ht : c.type = match valueOf (nth ps i) with | some a => a.type | none => .invalid := hc.type
  by_cases hx : c.type = .string ∨ c.type = .null
  · have : attestString true c = (.ok (), c) := by
      unfold attestString
      rcases hx with hx | hx <;> simp [hx]
    rw [this]
    refine ⟨?_, fun _ _ => hc⟩
    unfold stringAt
    cases hy : valueOf (nth ps i) with
    | none => rw [hy] at ht; simp [ht] at hx
    | some a => rw [hy] at ht; cases a <;> simp_all [Atom.type] <;> rfl
  · have : attestString true c = (.throw "Expected a String", c) := by
      unfold attestString
      simp_all
    rw [this]
    refine ⟨?_, fun _ _ => hc⟩
    unfold stringAt
    cases hy : valueOf (nth ps i) with
    | none => rfl
    | some a => rw [hy] at ht; cases a <;> simp_all [Atom.type] <;> rfl

private theorem quietly_field (xs : List Node) : quietly (fieldShown 0 xs) = (do
    quietly (stringAt false (nth xs 0))
    quietly (stringAt false (nth xs 1))
    quietly (eachOf (stringAt false) (nth xs 2))
    quietly (stringAt true (nth xs 3))
    quietly (stringAt true (nth xs 3))
    quietly (stringAt true (nth xs 4))
    quietly (flagAt (nth xs 5))
    quietly (flagAt (nth xs 6))) := by
  unfold fieldShown
  cases stringAt false (nth xs 0) with
  | ok a =>
    cases stringAt false (nth xs 1) with
    | ok a =>
      cases eachOf (stringAt false) (nth xs 2) with
      | ok a =>
        cases stringAt true (nth xs 3) with
        | ok a =>
          cases stringAt true (nth xs 4) with
          | ok a =>
            cases flagAt (nth xs 5) with
            | ok a => cases flagAt (nth xs 6) <;> rfl
            | throw m => rfl
            | ub m => rfl
          | throw m => rfl
          | ub m => rfl
        | throw m => rfl
        | ub m => rfl
      | throw m => rfl
      | ub m => rfl
    | throw m => rfl
    | ub m => rfl
  | throw m => rfl
  | ub m => rfl

/-- A field: everything in it is silent. -/
private theorem ist_field (ai : Str) {ks xs : List Node} (hn : nth ks 1 = some (.mk .list xs)) :
    IsT (Pos ks 1) (TProg.schemaField f ai) blank (do
      Told.line (yepLine (speakers f))
      quietly (fieldShown 0 xs)) (fun _ => True) := by
  unfold TProg.schemaField
  refine ist_yep (yep_line f) hn (ist_insideList (Q := fun _ => True) hn ?_)
  rw [quietly_field]
  refine ist_quietly (is_autoNext (is_getString false)) fun name h0 => ?_
  have hne := string_ne h0
  refine ist_quietly (is_autoNext (is_getString false)) fun type _ => ?_
  rw [← quietly_unit (eachOf _ _)]
  refine ist_quietly (is_requires _ hne) fun req _ => ist_step ?_
  rw [← quietly_unit (stringAt true (nth xs 3))]
  refine ist_quietly is_default fun _ _ => ?_
  rw [quietly_unit]
  refine ist_quietly (is_autoNext (is_getString true)) fun _ _ => ?_
  refine ist_quietly (is_autoNext (is_getString true)) fun _ _ => ?_
  refine ist_quietly (is_autoNext is_getBoolean) fun _ _ => ?_
  refine (ist_quietly (r := pure ()) (is_autoNext is_getBoolean) fun _ _ => ?_).eq (Told.bind_pure _)
  exact (ist_pure blank _).post fun _ _ => trivial

private theorem ist_for (hs : ∀ ai, ScopedOn (base ai).erase) (h : ∀ ai, Speaks P (base ai) rec) (hP : ∀ m, P m → ∀ x ∈ m.kids, P x)
    {ks xs : List Node} (hn : nth ks 1 = some (.mk .list xs)) (hx : P (.mk .list xs)) (id : Nat) (ai : Str) :
    IsT (Pos ks 1) (TProg.schemaFor f base id ai) blank (insideSaid (speakers f) rec id (nth ks 1)) (fun _ => True) := by
  have hd : ∀ k ≤ 22, descId k = cordaId k := fun k hk => descId_is hk
  have hrec : IsT (Pos ks 1) (base ai) blank (rec (nth ks 1)) (fun _ => True) := (ist_speaks (h ai) hn hx).post fun _ _ => trivial
  have hk : kidsOf (nth ks 1) = xs := by rw [hn]; rfl
  have hxs : ∀ n ∈ xs, P n := hP _ hx
  have hxs' : ∀ n ∈ xs, ∀ k ∈ n.kids, P k := fun n hn => hP n (hxs n hn)
  unfold TProg.schemaFor insideSaid
  rw [← hd 1 (by decide), ← hd 2 (by decide), ← hd 3 (by decide), ← hd 4 (by decide), ← hd 5 (by decide),
    ← hd 6 (by decide), ← hd 7 (by decide), ← hd 8 (by decide), ← hd 9 (by decide), ← hd 10 (by decide),
    ← hd 11 (by decide)]
  by_cases h0 : id = 22
  · subst h0
    rw [if_pos rfl]
    iterate 6 rw [if_neg (by decide)]
    rw [if_pos (.inl rfl)]
    exact hrec
  rw [if_neg h0]
  by_cases h1 : id = descId 1
  · rw [if_pos h1, if_pos h1, hk]
    unfold TProg.schemaEnvelope
    refine ist_yep (yep_line f) hn (ist_inside (Q := fun _ => True) hn ?_)
    refine ist_bind (h := fun _ => elementSaid rec (nth xs 1)) (ist_autoNext (ist_element h _ hxs)) fun _ _ => ?_
    exact ist_last (ist_autoNext (ist_element h _ hxs)) _
  rw [if_neg h1, if_neg h1]
  by_cases h2 : id = descId 2
  · rw [if_pos h2, if_pos h2]
    unfold TProg.schemaSchema schemaSaid
    exact ist_yep (yep_line f) hn (ist_each (fun l j => speaks_types hs h hP _ _ _) hn hxs)
  rw [if_neg h2, if_neg h2]
  by_cases h3 : id = descId 3
  · rw [if_pos h3, if_pos h3, hk]
    unfold TProg.schemaObject
    exact ist_yep (yep_line f) hn (ist_insideNext hn fun _ => ist_object ai)
  rw [if_neg h3, if_neg h3]
  by_cases h4 : id = descId 4
  · rw [if_pos h4, if_pos h4, hk]
    exact ist_field ai hn
  rw [if_neg h4, if_neg h4]
  by_cases h5 : id = descId 5
  · rw [if_pos h5, if_pos h5, hk]
    unfold TProg.schemaComposite
    exact ist_yep (yep_line f) hn (ist_inside hn (ist_composite h _ hxs hxs'))
  rw [if_neg h5, if_neg h5]
  by_cases h6 : id = descId 6
  · rw [if_pos h6, if_pos h6, hk]
    unfold TProg.schemaRestricted
    exact ist_yep (yep_line f) hn (ist_inside hn (ist_restricted h _ hxs))
  rw [if_neg h6, if_neg h6]
  by_cases h7 : id = descId 7
  · rw [if_pos h7, if_pos (.inr (.inl h7))]; exact hrec
  by_cases h8 : id = descId 8
  · rw [if_neg h7, if_pos h8, if_pos (.inr (.inr (.inl h8)))]; exact hrec
  by_cases h9 : id = descId 9
  · rw [if_neg h7, if_neg h8, if_pos h9, if_pos (.inr (.inr (.inr (.inl h9))))]; exact hrec
  by_cases h10 : id = descId 10
  · rw [if_neg h7, if_neg h8, if_neg h9, if_pos h10, if_pos (.inr (.inr (.inr (.inr (.inl h10)))))]; exact hrec
  by_cases h11 : id = descId 11
  · rw [if_neg h7, if_neg h8, if_neg h9, if_neg h10, if_pos h11, if_pos (.inr (.inr (.inr (.inr (.inr h11)))))]; exact hrec
  rw [if_neg h7, if_neg h8, if_neg h9, if_neg h10, if_neg h11, if_neg (by rintro (h | h | h | h | h | h) <;> contradiction)]
  exact ist_quiet (is_ub _ _)

end

private theorem speaks_schemaBase (f : SchemaFiles) : (fuel : Nat) → ∀ ai, Speaks (fun _ => True) (TProg.schemaBase f fuel ai)
    (saidIn (speakers f) fuel)
  | 0 => fun _ _ _ _ _ => ⟨rfl, rfl, rfl⟩
  | fuel + 1 => by
    intro ai c n hc _
    have ih := speaks_schemaBase f fuel
    have hs : ∀ ai, ScopedOn (TProg.schemaBase f fuel ai).erase := fun ai => by
      rw [TProg.erase_schemaBase]; exact scopedOn_rawBase fuel ai
    have hcur : (TProg.schemaBase f (fuel + 1) ai c).1.2 = c := by
      show ((TProg.schemaBase f (fuel + 1) ai).erase c).2 = c
      rw [TProg.erase_schemaBase, rawBase, autoEnter_eq (scoped_rawBody (scopedOn_rawBase fuel) _) (by rw [hc]; rfl)]
    suffices hk : IsT (Pos n.kids 0) (TProg.schemaBody f (TProg.schemaBase f fuel) ai) blank (saidIn (speakers f) (fuel + 1) (some n))
        (fun _ => True) from ⟨(hk _ (pos_enter hc)).1, (hk _ (pos_enter hc)).2.1, hcur⟩
    unfold TProg.schemaBody saidIn
    intro d hp
    have hv := val_at hp.1
    have ht := hp.type
    rw [TProg.bind_def]
    simp only [TProg.quiet, show look Cursor.type d = (.ok d.type, d) from rfl, List.nil_append, ht]
    show blank <$> _ = Told.res (match valueOf (nth n.kids 0) with
      | some (.ulong id) => _
      | some (.symbol s) => _
      | _ => _) ∧ _ = Told.out (match valueOf (nth n.kids 0) with
      | some (.ulong id) => _
      | some (.symbol s) => _
      | _ => _) ∧ _
    cases ha : valueOf (nth n.kids 0) with
    | none => exact ⟨rfl, rfl, fun _ _ => trivial⟩
    | some a =>
      rw [ha] at hv
      cases a with
      | ulong id =>
        have h1 : readUint64 d = (.ok id, d.next.2) := by
          simp [readUint64, Prog.autoNext, look, getUlong, hv]
        have hp1 := hp.next
        have key : IsT (Pos n.kids 1) (do
            TProg.attestIsList f
            let l ← TProg.quiet (look Cursor.getList)
            let x ← TProg.schemaFor f (TProg.schemaBase f fuel) id (deeper ai)
            pure (ai ++ dDescribed ++ nl ++ deeper ai ++ dKey ++ natStr id ++ dColons ++ natStr (stripCorda id) ++ dArrow
              ++ describedToString id ++ nl ++ deeper ai ++ dList ++ natStr l ++ nl ++ x) : TProg Str) blank (do
            quietly (listParts (nth n.kids 1))
            Told.line (yepLine (speakers f))
            insideSaid (speakers f) (saidIn (speakers f) fuel) id (nth n.kids 1)) (fun _ => True) := by
          refine ist_attest (yep_line f) fun hl => ?_
          have hn := list_some hl
          intro e he
          rw [TProg.bind_def]
          simp only [TProg.quiet, show look Cursor.getList e = (.ok e.getList, e) from rfl, List.nil_append]
          exact ist_last (ist_for hs ih (fun _ _ _ _ => trivial) hn trivial id (deeper ai)) _ e he
        have := key _ hp1
        have e : ∀ (A B : TProg Str), (if (match some (Atom.ulong id) with | some a => a.type | none => PnType.invalid) = PnType.ulong then A
            else B) = A := fun A B => if_pos rfl
        rw [e, TProg.bind_def]
        simp only [TProg.quiet, h1, List.nil_append]
        exact this
      | symbol s => exact ⟨rfl, rfl, fun _ _ => trivial⟩
      | _ => exact ⟨rfl, rfl, fun _ _ => trivial⟩

/-- **C99, raw elements.** While a schema element is dumped as raw text, with the cursor anywhere on a node, exactly the lines described in the
specification are printed. -/
theorem C99_raw_element (f : SchemaFiles) (depth : Nat) (ai : Str) (c : Cursor) (n : Node) (hc : c.cur = some n) :
    (TProg.schemaBase f depth ai c).2 = (saidIn (speakers f) depth (some n)).out :=
  (speaks_schemaBase f depth ai c n hc trivial).2.1

/-! ### The Avro form -/

private theorem blank_bind {α β γ : Type} (r : Res α) {k : α → Res β} {k' : α → Res γ}
    (h : ∀ a, (blank <$> k a : Res Unit) = blank <$> k' a) : (blank <$> (r >>= k) : Res Unit) = blank <$> (r >>= k') := by
  cases r with
  | ok a => exact h a
  | throw m => rfl
  | ub m => rfl

private theorem blank_around {α : Type} {x y : Res α} (h : (blank <$> x : Res Unit) = blank <$> y) (w w' : α → Str) :
    (blank <$> (x >>= fun a => pure (w a)) : Res Unit) = blank <$> (y >>= fun a => pure (w' a)) := by
  cases x <;> cases y <;> first | rfl | (cases h; done) | (cases h; rfl)

private theorem blank_ite {α β : Type} {b : Prop} [Decidable b] {x y : Res α} {x' y' : Res β} (h : (blank <$> x : Res Unit) = blank <$> x')
    (h' : (blank <$> y : Res Unit) = blank <$> y') : (blank <$> (if b then x else y) : Res Unit) = blank <$> (if b then x' else y') := by
  split
  · exact h
  · exact h'

/-- Whether the type of a field can be shown does not depend on the indentation. -/
private theorem infer_blank (fuel : Nat) : ∀ type req ai ai' : Str,
    (blank <$> inferGo fuel type req ai : Res Unit) = blank <$> inferGo fuel type req ai' := by
  induction fuel with
  | zero => exact fun _ _ _ _ => rfl
  | succ n ih =>
    intro type req ai ai'
    unfold inferGo
    refine blank_bind _ fun a => blank_ite ?_ (blank_ite ?_ (blank_ite ?_ rfl))
    · exact blank_bind _ fun t => blank_bind _ fun c => blank_ite (blank_around (ih _ _ _ _) _ _) rfl
    · exact blank_bind _ fun t => blank_bind _ fun c => blank_ite (blank_around (ih _ _ _ _) _ _) rfl
    · exact blank_bind _ fun t => blank_bind _ fun c => blank_ite (blank_around (ih _ _ _ _) _ _) rfl

private theorem is_avroType {ps : List Node} (hne : ps ≠ []) (hsm : ∀ m ∈ ps, SmallTexts m) (ai : Str) :
    Is (Pos ps 1) (avroType ai) blank (blank <$> (do
      let type ← stringAt false (nth ps 1)
      let required ← requiredOf (nth ps 2)
      typeShown ((neededType type required).length + 1) 1 (neededType type required))) (fun _ => True) := by
  have small : ∀ {m : Node} {s : Str}, SmallTexts m → stringAt false (some m) = .ok s → s.Small := by
    intro m s hm hs
    refine hm m (.self m) s ?_
    cases m with
    | mk a ks => cases a <;> simp_all [stringAt, valueOf, Node.val]
  have shown : ∀ type r : Str, (neededType type r).Small → (blank <$> inferType type r ai : Res Unit)
      = blank <$> typeShown ((neededType type r).length + 1) 1 (neededType type r) := fun type r hs => by
    rw [← inferType_shown type r 1 hs]
    exact infer_blank _ _ _ _ _
  obtain ⟨m1, hm1⟩ := nth_isSome 1 hne
  obtain ⟨m2, hm2⟩ := nth_isSome 2 hne
  unfold avroType
  refine (is_bind (h := fun type => blank <$> (do
      let required ← requiredOf (nth ps 2)
      typeShown ((neededType type required).length + 1) 1 (neededType type required))) (is_autoNext (is_getString false)) fun type ht => ?_).eq
    (by cases stringAt false (nth ps 1) <;> rfl)
  rw [hm1] at ht
  have ht' : type.Small := small (hsm m1 (nth_mem hm1)) ht
  refine (is_listEnter (Q := fun _ => True) hm2
    (fun n => scoped_ite (scoped_bind (scoped_getString _) fun _ => scoped_lift _) (scoped_lift _)) ?_).post fun _ _ => trivial
  unfold requiredOf
  rw [hm2]
  simp only [id]
  by_cases hz : (listElements (some m2)).length = 0
  · rw [if_pos hz, hz]
    have hsm' : (neededType type []).Small := needed_small ht' (by unfold Str.Small; decide)
    show Is _ (lift (inferType type [] ai)) _ (blank <$> typeShown _ _ _) _
    rw [← shown type [] hsm']
    exact ((is_lift _).map blank).post fun _ _ => trivial
  · rw [if_neg hz, if_pos (by omega)]
    refine (is_bind (h := fun r => blank <$> typeShown ((neededType type r).length + 1) 1 (neededType type r)) (is_getString false)
      fun r hr => ?_).eq (by
        show _ = blank <$> (stringAt false (nth m2.kids 0) >>= _)
        cases stringAt false (nth m2.kids 0) <;> rfl)
    have hr' : r.Small := by
      obtain ⟨m, hm⟩ := nth_isSome 0 (string_ne hr)
      rw [hm] at hr
      exact small (fun x hx => hsm m2 (nth_mem hm2) x (.part (nth_mem hm) hx)) hr
    simp only [id]
    rw [← shown type r (needed_small ht' hr')]
    exact ((is_lift _).map blank).post fun _ _ => trivial

private theorem quietly_avroField (xs : List Node) : quietly (fieldAvro 0 xs) = (do
    quietly (stringAt false (nth xs 0))
    quietly (do
      let type ← stringAt false (nth xs 1)
      let required ← requiredOf (nth xs 2)
      typeShown ((neededType type required).length + 1) 1 (neededType type required))) := by
  unfold fieldAvro
  cases stringAt false (nth xs 0) with
  | ok a =>
    cases stringAt false (nth xs 1) with
    | ok t =>
      cases requiredOf (nth xs 2) with
      | ok r =>
        simp only [Res.bind_eq, Res.bind]
        cases typeShown ((neededType t r).length + 1) 1 (neededType t r) <;> rfl
      | throw m => rfl
      | ub m => rfl
    | throw m => rfl
    | ub m => rfl
  | throw m => rfl
  | ub m => rfl

section
variable {f : SchemaFiles} {base : Str → TProg Str} {rec : Saying}

private theorem ist_avroField (ai : Str) {ks xs : List Node} (hn : nth ks 1 = some (.mk .list xs)) (hsm : ∀ m ∈ xs, SmallTexts m) :
    IsT (Pos ks 1) (TProg.avroField f ai) blank (do
      Told.line (yepLine (speakers f))
      quietly (fieldAvro 0 xs)) (fun _ => True) := by
  unfold TProg.avroField
  refine ist_yep (yep_line f) hn (ist_insideList (Q := fun _ => True) hn ?_)
  rw [quietly_avroField]
  refine ist_quietly (is_autoNext (is_getString false)) fun name h0 => ?_
  have hne := string_ne h0
  rw [← quietly_unit]
  refine (ist_quietly (r := pure ()) (is_avroType hne hsm _) fun _ _ => ?_).eq (Told.bind_pure _)
  exact (ist_pure blank _).post fun _ _ => trivial

private theorem ist_record (h : ∀ ai, Speaks SmallTexts (base ai) rec) (ai : Str) {ps : List Node} (hp : ∀ n ∈ ps, SmallTexts n)
    (hp' : ∀ n ∈ ps, ∀ k ∈ n.kids, SmallTexts k) :
    IsT (Pos ps 0) (do
      TProg.quiet Prog.attestString
      let name ← TProg.readText
      let found := findLast '.' name
      let last ← TProg.quiet (Prog.lift (substr name (addW found 1) npos))
      let first ← TProg.quiet (Prog.lift (substr name 0 found))
      TProg.quiet (Prog.attestString true)
      let _ ← TProg.quiet Prog.next
      TProg.attestIsList f
      let _ ← TProg.quiet Prog.next
      TProg.quiet Prog.attestDescribed
      let desc ← TProg.autoNext (TProg.byType (base ai))
      let fields ← TProg.listEnter (fun n => TProg.forNext (fun i => do
        let x ← TProg.byType (base (deeper ai))
        pure (x ++ (if i < n then aComma else []) ++ nl)))
      pure (aOpen ++ nl ++ ai ++ aRecord ++ nl ++ ai ++ aName ++ last ++ aQuoteComma ++ nl
        ++ ai ++ aNamespace ++ first ++ aQuoteComma ++ nl ++ desc ++ ai ++ aFields ++ nl ++ fields ++ ai ++ aFieldsEnd ++ nl
        ++ aClose) : TProg Str)
      blank (recordSaid (speakers f) rec ps) (fun _ => True) := by
  unfold recordSaid
  rw [attestString_false, quiet_pure]
  refine ist_text fun name hn => ?_
  have hne := word_ne hn
  have hsmall : name.Small := by
    obtain ⟨m, hm⟩ := nth_isSome 0 hne
    refine hp m (nth_mem hm) m (.self m) name ?_
    rw [hm] at hn
    cases m with
    | mk a ks => cases a <;> simp_all [wordAt, valueOf, Node.val]
  obtain ⟨h1, h2⟩ := split_name name hsmall
  have l1 : (Prog.lift (substr name (addW (findLast '.' name) 1) npos) : Prog Str) = pure (simpleName name) := by rw [h1]; rfl
  have l2 : (Prog.lift (substr name 0 (findLast '.' name)) : Prog Str) = pure (packageName name) := by rw [h2]; rfl
  dsimp only
  rw [l1, quiet_pure, l2, quiet_pure]
  rw [← quietly_unit (stringAt true (nth ps 1))]
  refine ist_quietly is_default fun _ _ => ist_step ?_
  refine ist_attest (yep_line f) fun _ => ist_step ?_
  refine ist_quietly is_attestDescribed fun _ hd => ?_
  have he : elementSaid rec (nth ps 3) = rec (nth ps 3) := by
    unfold elementSaid
    rw [described_some hd]; rfl
  refine ist_bind (h := fun _ => eachSaid (elementSaid rec) (nth ps 4)) (ist_autoNext ((ist_element h ai hp).eq he)) fun desc _ => ?_
  exact ist_last (ist_elements h _ (fun n i x => x ++ (if i < n then aComma else []) ++ nl) hne hp') _

private theorem ist_avroObject (ai : Str) {ps : List Node} :
    IsT (Pos ps 0) (do
      let s ← TProg.quiet (Prog.autoNext Prog.getSymbol)
      pure (ai ++ aAliases ++ s ++ aAliasesEnd ++ nl) : TProg Str) blank (quietly (symbolOf (nth ps 0))) (fun _ => True) := by
  refine (ist_quietly (r := pure ()) (is_autoNext is_getSymbol) fun s _ => ?_).eq (Told.bind_pure _)
  intro c _
  exact ⟨rfl, rfl, fun _ _ => trivial⟩

private theorem ist_avroFor (h : ∀ ai, Speaks SmallTexts (base ai) rec)
    {ks xs : List Node} (hn : nth ks 1 = some (.mk .list xs)) (hx : SmallTexts (.mk .list xs)) (id : Nat) (ai : Str) :
    IsT (Pos ks 1) (TProg.avroFor f base id ai) blank (insideAvroSaid (speakers f) rec id (nth ks 1)) (fun _ => True) := by
  have hd : ∀ k ≤ 22, descId k = cordaId k := fun k hk => descId_is hk
  have hrec : IsT (Pos ks 1) (base ai) blank (rec (nth ks 1)) (fun _ => True) := (ist_speaks (h ai) hn hx).post fun _ _ => trivial
  have hk : kidsOf (nth ks 1) = xs := by rw [hn]; rfl
  have hxs : ∀ n ∈ xs, SmallTexts n := fun _ hm y hy => hx y (.part hm hy)
  have hxs' : ∀ n ∈ xs, ∀ k ∈ n.kids, SmallTexts k := fun n hn _ hm y hy => hxs n hn y (.part hm hy)
  unfold TProg.avroFor insideAvroSaid
  rw [← hd 1 (by decide), ← hd 2 (by decide), ← hd 3 (by decide), ← hd 4 (by decide), ← hd 5 (by decide),
    ← hd 6 (by decide), ← hd 7 (by decide), ← hd 8 (by decide), ← hd 9 (by decide), ← hd 10 (by decide),
    ← hd 11 (by decide)]
  by_cases h0 : id = 22
  · subst h0
    rw [if_pos rfl]
    iterate 6 rw [if_neg (by decide)]
    rw [if_pos (.inl rfl)]
    exact hrec
  rw [if_neg h0]
  by_cases h1 : id = descId 1
  · rw [if_pos h1, if_pos h1, hk]
    unfold TProg.avroEnvelope
    rw [envelope_line]
    refine ist_line rfl (ist_yep (yep_line f) hn ?_)
    intro c hc
    have hcur : c.cur = some (.mk .list xs) := hc.1.trans hn
    have := ist_autoNext (ist_element h ai (i := 1) hxs) _ (pos_enter hcur).next
    exact ⟨this.1, this.2.1, fun _ _ => trivial⟩
  rw [if_neg h1, if_neg h1]
  by_cases h2 : id = descId 2
  · rw [if_pos h2, if_pos h2, hk]
    unfold TProg.avroSchema
    rw [schema_line]
    refine ist_line rfl (ist_yep (yep_line f) hn (ist_insideList (Q := fun _ => True) hn ?_))
    show IsT _ (if xs.length = 1 then _ else _) _ _ _
    by_cases hl : xs.length = 1
    · rw [if_pos hl, if_pos hl]
      exact ist_elements h ai (fun m j x => if x = [] then [] else x ++ (if j < m then aComma else []) ++ nl)
        (by rintro rfl; cases hl) hxs'
    · rw [if_neg hl, if_neg hl]
      exact ist_quiet (is_ub _ _)
  rw [if_neg h2, if_neg h2]
  by_cases h3 : id = descId 3
  · rw [if_pos h3, if_pos h3, hk]
    unfold TProg.avroObject
    rw [object_line]
    exact ist_line rfl (ist_yep (yep_line f) hn (ist_insideNext hn fun _ => ist_avroObject ai))
  rw [if_neg h3, if_neg h3]
  by_cases h4 : id = descId 4
  · rw [if_pos h4, if_pos h4, hk]
    exact ist_avroField ai hn hxs
  rw [if_neg h4, if_neg h4]
  by_cases h5 : id = descId 5
  · rw [if_pos h5, if_pos h5, hk]
    unfold TProg.avroComposite
    rw [composite_line]
    exact ist_line rfl (ist_yep (yep_line f) hn (ist_inside hn (ist_record h _ hxs hxs')))
  rw [if_neg h5, if_neg h5]
  by_cases h6 : id = descId 6
  · rw [if_pos h6, if_pos h6]
    intro c _
    exact ⟨rfl, rfl, fun _ _ => trivial⟩
  rw [if_neg h6, if_neg h6]
  by_cases h7 : id = descId 7
  · rw [if_pos h7, if_pos (.inr (.inl h7))]; exact hrec
  by_cases h8 : id = descId 8
  · rw [if_neg h7, if_pos h8, if_pos (.inr (.inr (.inl h8)))]; exact hrec
  by_cases h9 : id = descId 9
  · rw [if_neg h7, if_neg h8, if_pos h9, if_pos (.inr (.inr (.inr (.inl h9))))]; exact hrec
  by_cases h10 : id = descId 10
  · rw [if_neg h7, if_neg h8, if_neg h9, if_pos h10, if_pos (.inr (.inr (.inr (.inr (.inl h10)))))]; exact hrec
  by_cases h11 : id = descId 11
  · rw [if_neg h7, if_neg h8, if_neg h9, if_neg h10, if_pos h11, if_pos (.inr (.inr (.inr (.inr (.inr h11)))))]; exact hrec
  rw [if_neg h7, if_neg h8, if_neg h9, if_neg h10, if_neg h11, if_neg (by rintro (h | h | h | h | h | h) <;> contradiction)]
  exact ist_quiet (is_ub _ _)

end

private theorem speaks_avroBase (f : SchemaFiles) : (fuel : Nat) → ∀ ai, Speaks SmallTexts (TProg.avroBase f fuel ai)
    (avroSaidIn (speakers f) fuel)
  | 0 => fun _ _ _ _ _ => ⟨rfl, rfl, rfl⟩
  | fuel + 1 => by
    intro ai c n hc hsm
    have ih := speaks_avroBase f fuel
    have hcur : (TProg.avroBase f (fuel + 1) ai c).1.2 = c := by
      show ((TProg.avroBase f (fuel + 1) ai).erase c).2 = c
      rw [TProg.erase_avroBase, avroBase, autoEnter_eq (scoped_avroBody (scopedOn_avroBase fuel) _) (by rw [hc]; rfl)]
    suffices hk : IsT (Pos n.kids 0) (TProg.avroBody f (TProg.avroBase f fuel) ai) blank (avroSaidIn (speakers f) (fuel + 1) (some n))
        (fun _ => True) from ⟨(hk _ (pos_enter hc)).1, (hk _ (pos_enter hc)).2.1, hcur⟩
    unfold TProg.avroBody avroSaidIn
    rw [descriptor_line]
    refine ist_line rfl ?_
    intro d hp
    have hv := val_at hp.1
    have ht := hp.type
    rw [TProg.bind_def]
    simp only [TProg.quiet, show look Cursor.type d = (.ok d.type, d) from rfl, List.nil_append, ht]
    show blank <$> _ = Told.res (match valueOf (nth n.kids 0) with
      | some (.ulong id) => _
      | some (.symbol s) => _
      | _ => _) ∧ _ = Told.out (match valueOf (nth n.kids 0) with
      | some (.ulong id) => _
      | some (.symbol s) => _
      | _ => _) ∧ _
    cases ha : valueOf (nth n.kids 0) with
    | none => exact ⟨rfl, rfl, fun _ _ => trivial⟩
    | some a =>
      rw [ha] at hv
      cases a with
      | ulong id =>
        have h1 : readUint64 d = (.ok id, d.next.2) := by
          simp [readUint64, Prog.autoNext, look, getUlong, hv]
        have hp1 := hp.next
        have key : IsT (Pos n.kids 1) (do
            TProg.attestIsList f
            TProg.avroFor f (TProg.avroBase f fuel) id ai : TProg Str) blank (do
            quietly (listParts (nth n.kids 1))
            Told.line (yepLine (speakers f))
            insideAvroSaid (speakers f) (avroSaidIn (speakers f) fuel) id (nth n.kids 1)) (fun _ => True) := by
          refine ist_attest (yep_line f) fun hl => ?_
          have hn := list_some hl
          exact ist_avroFor ih hn (fun y hy => hsm y (.part (nth_mem hn) hy)) id ai
        have := key _ hp1
        have e : ∀ (A B : TProg Str), (if (match some (Atom.ulong id) with | some a => a.type | none => PnType.invalid) = PnType.ulong then A
            else B) = A := fun A B => if_pos rfl
        rw [e, TProg.bind_def]
        simp only [TProg.quiet, h1, List.nil_append]
        exact this
      | symbol s => exact ⟨rfl, rfl, fun _ _ => trivial⟩
      | _ => exact ⟨rfl, rfl, fun _ _ => trivial⟩

/-- **C99, Avro elements.** While a schema element is dumped in the Avro form, with the cursor anywhere on a node, exactly the lines described in
the specification are printed. -/
theorem C99_avro_element (f : SchemaFiles) (depth : Nat) (ai : Str) (c : Cursor) (n : Node) (hc : c.cur = some n) (hs : SmallTexts n) :
    (TProg.avroBase f depth ai c).2 = (avroSaidIn (speakers f) depth (some n)).out :=
  (speaks_avroBase f depth ai c n hc hs).2.1

/-- **C99, the first Avro line.** An element in the Avro form always starts with the line of the descriptor. -/
theorem C99_avro_first (f : SchemaFiles) (depth : Nat) (ai : Str) (c : Cursor) :
    ∃ l, (TProg.avroBase f (depth + 1) ai c).2 = (descriptorLine (speakers f) ++ "\n".toList) :: l := by
  unfold TProg.avroBase TProg.avroBody
  rw [descriptor_line]
  exact ⟨_, rfl⟩

/-! ### The whole dump -/

/-- **C99, the start.** A dump starts with the element the cursor is on, if that is something described. -/
theorem C99_start (f : SchemaFiles) (t : DumpTarget) (c : Cursor) (n : Node) (hc : c.cur = some n) :
    TProg.dumpSchema f t c = if n.val.type = .described then (match t with
      | .raw => TProg.schemaBase f n.height []
      | .amqp => pure []
      | .avro => TProg.avroBase f n.height [] : TProg Str) c
    else ((.throw "Can only dispatch described objects", c), []) := by
  have ht : c.type = n.val.type := by simp [Cursor.type, hc]
  have hf : c.fuel = n.height := by rw [Cursor.fuel, hc]
  unfold TProg.dumpSchema
  rw [TProg.bind_def]
  simp only [TProg.quiet, show look Cursor.type c = (.ok c.type, c) from rfl, List.nil_append, ht, hf]
  by_cases h : n.val.type = .described
  · rw [if_pos h, if_neg (by simpa using h)]; rfl
  · rw [if_neg h, if_pos h]; rfl

private theorem described_iff (n : Node) : n.val.type = .described ↔ n.val = .described := by
  cases n with | mk a ks => cases a <;> simp [Node.val, Atom.type]

/-- **C99, the trace of the raw dump.** Whatever the tree and the position, dumping with the trace has the outcome of dumping without it, leaves
the cursor where it is, and prints exactly the lines of the direct description. -/
theorem C99_raw (f : SchemaFiles) (c : Cursor) (n : Node) (hc : c.cur = some n) :
    (TProg.dumpSchema f .raw c).1 = (rawDump n, c) ∧ (TProg.dumpSchema f .raw c).2 = (rawSaid (speakers f) n).out := by
  refine ⟨?_, ?_⟩
  · rw [TProg.erase_dumpSchema, ← C90_any c n hc]
    exact Prod.ext rfl (C59_dump_cursor .raw c).1
  · rw [C99_start f .raw c n hc]
    unfold rawSaid
    by_cases h : n.val.type = .described
    · rw [if_pos h, (described_iff n).mp h]
      exact C99_raw_element f n.height [] c n hc
    · rw [if_neg h]
      cases hv : n.val with
      | described => rw [hv] at h; exact absurd rfl h
      | _ => rfl

/-- **C99, the trace of the Avro dump.** The same for the Avro form. -/
theorem C99_avro (f : SchemaFiles) (c : Cursor) (n : Node) (hc : c.cur = some n) (hs : SmallTexts n) :
    (TProg.dumpSchema f .avro c).1 = (avroDump n, c) ∧ (TProg.dumpSchema f .avro c).2 = (avroSaid (speakers f) n).out := by
  refine ⟨?_, ?_⟩
  · rw [TProg.erase_dumpSchema, ← C91_any c n hc hs]
    exact Prod.ext rfl (C59_dump_cursor .avro c).1
  · rw [C99_start f .avro c n hc]
    unfold avroSaid
    by_cases h : n.val.type = .described
    · rw [if_pos h, (described_iff n).mp h]
      exact C99_avro_element f n.height [] c n hc hs
    · rw [if_neg h]
      cases hv : n.val with
      | described => rw [hv] at h; exact absurd rfl h
      | _ => rfl

/-- **C99, the same outcome.** The description of the trace stops with an exception or with undefined behaviour exactly where the dump does. -/
theorem C99_raw_result (f : SchemaFiles) (c : Cursor) (n : Node) (hc : c.cur = some n) :
    (blank <$> (dumpSchema .raw c).1 : Res Unit) = (rawSaid (speakers f) n).res := by
  rw [← TProg.erase_dumpSchema f, C99_start f .raw c n hc]
  unfold rawSaid
  by_cases h : n.val.type = .described
  · rw [if_pos h, (described_iff n).mp h]
    exact (speaks_schemaBase f n.height [] c n hc trivial).1
  · rw [if_neg h]
    cases hv : n.val with
    | described => rw [hv] at h; exact absurd rfl h
    | _ => rfl

/-- **C99, the same outcome, Avro.** -/
theorem C99_avro_result (f : SchemaFiles) (c : Cursor) (n : Node) (hc : c.cur = some n) (hs : SmallTexts n) :
    (blank <$> (dumpSchema .avro c).1 : Res Unit) = (avroSaid (speakers f) n).res := by
  rw [← TProg.erase_dumpSchema f, C99_start f .avro c n hc]
  unfold avroSaid
  by_cases h : n.val.type = .described
  · rw [if_pos h, (described_iff n).mp h]
    exact (speaks_avroBase f n.height [] c n hc hs).1
  · rw [if_neg h]
    cases hv : n.val with
    | described => rw [hv] at h; exact absurd rfl h
    | _ => rfl

#print axioms C99_raw_element
#print axioms C99_avro_element
#print axioms C99_avro_first
#print axioms C99_start
#print axioms C99_raw
#print axioms C99_avro
#print axioms C99_raw_result
#print axioms C99_avro_result

end Corda.Props
