import Verif.Lemmas.AnyAvro
import Verif.Lemmas.AnyTree

/-
C91: what dumping the schema of any tree in the Avro form makes.
-/

namespace Corda.Props
open Corda Prog Spec

/-! ### Names of types -/

/-- **C91, names.** The text for the type of a field, whatever the name is, is the one described in the specification; so are
the exception and the undefined behaviour. -/
theorem C91_names (type required : Str) (k : Nat) (hs : (neededType type required).Small) :
    inferType type required (indent k)
      = typeShown ((neededType type required).length + 1) k (neededType type required) := inferType_shown type required k hs

/-- **C91, the bound on the nesting of a name is no restriction.** -/
theorem C91_name_depth (d k : Nat) (s : Str) (hs : s.Small) (h : s.length < d) :
    typeShown d k s = typeShown (s.length + 1) k s := typeShown_depth d k s hs h

/-! ### Trees -/

/-- A way to dump that makes the given text of whatever is there. -/
private def Makes (base : Str → Prog Str) (rec : Avros) : Prop :=
  ∀ k c n, c.cur = some n → base (indent k) c = (rec k (some n), c)

private theorem byType_here {base : Str → Prog Str} {rec : Avros} (h : Makes base rec) (k : Nat) (c : Cursor) :
    byType (base (indent k)) c = (elementAvro rec k c.cur, c) := by
  unfold byType elementAvro
  rw [bind_of_ok (show look Cursor.type c = (.ok c.type, c) from rfl)]
  cases hc : c.cur with
  | none => simp only [Cursor.type, hc]; rfl
  | some n =>
    have ht : c.type = n.val.type := by simp [Cursor.type, hc]
    rw [ht]
    cases n with
    | mk a ks => cases a <;> first | rfl | exact h k c _ hc

private theorem is_byType {base : Str → Prog Str} {rec : Avros} (h : Makes base rec) (k : Nat) {ps : List Node} {i : Nat} :
    Is (Pos ps i) (byType (base (indent k))) id (elementAvro rec k (nth ps i)) (Pos ps i) :=
  is_here fun c hc => by rw [byType_here h, hc]

private theorem attestString_false : (attestString false : Prog Unit) = pure () := by
  funext c
  unfold attestString
  by_cases h : c.type = .string <;> simp [h] <;> rfl

private theorem pure_then {α β : Type} (a : α) (k : α → Prog β) : ((pure a : Prog α) >>= k) = k a := rfl

private theorem is_attestString {ps : List Node} {i : Nat} :
    Is (Pos ps i) (attestString true) (fun _ => ()) ((fun _ => ()) <$> stringAt true (nth ps i)) (Pos ps i) := by
  intro c hc
  have ht : c.type = match valueOf (nth ps i) with | some a => a.type | none => .invalid := hc.type
  by_cases hx : c.type = .string ∨ c.type = .null
  · have : attestString true c = (.ok (), c) := by
      unfold attestString
      rcases hx with hx | hx <;> simp [hx]
    rw [this]
    refine ⟨?_, fun _ _ => hc⟩
    unfold stringAt
    cases hy : valueOf (nth ps i) with
    | none => rw [hy] at ht; simp [ht] at hx
    | some a => rw [hy] at ht; cases a <;> simp_all [Atom.type] <;> rfl
  · have : attestString true c = (.throw "Expected a String", c) := by
      unfold attestString
      simp_all
    rw [this]
    refine ⟨?_, fun _ _ => hc⟩
    unfold stringAt
    cases hy : valueOf (nth ps i) with
    | none => rfl
    | some a => rw [hy] at ht; cases a <;> simp_all [Atom.type] <;> rfl

private theorem map_unit {α β : Type} (r : Res α) (x : Res β) :
    (((fun _ => ()) <$> r) >>= fun _ => x) = (r >>= fun _ => x) := by cases r <;> rfl

private theorem past_list {ks xs : List Node} {i : Nat} (hn : nth ks i = some (.mk .list xs)) {q : Prog Str} {r : Res Str}
    {Q : Cursor → Prop} (h : Is (Pos ks i) q id r Q) : Is (Pos ks i) (attestList >>= fun _ => q) id r Q := by
  intro c hc
  rw [bind_of_ok (show attestList c = (.ok (), c) from attest_ok (by rw [Cursor.type, hc.1, hn]; rfl))]
  exact h c hc

private theorem join_id (r : Res (List Str)) : (fun bs : List Str => bs.flatMap id) <$> r = List.flatten <$> r := by
  cases r with
  | ok bs => simp only [Res.map_eq, Res.bind, List.flatMap_id]
  | throw m => rfl
  | ub m => rfl

/-- The elements under the current node, each made into text by `w`. -/
private theorem is_elements {base : Str → Prog Str} {rec : Avros} (hs : ∀ ai, ScopedOn (base ai)) (h : Makes base rec)
    (k : Nat) (w : Nat → Nat → Str → Str) {ps : List Node} {i : Nat} (hne : ps ≠ []) :
    Is (Pos ps i) (autoListEnter (fun n => forNext (fun j => do
      let f ← byType (base (indent k))
      pure (w n j f)))) id
      (List.flatten <$> numberedOf (fun j m => do
        let t ← elementAvro rec k m
        pure (w (listElements (nth ps i)).length j t)) (nth ps i)) (Pos ps i) := by
  refine (is_forNext (g := id) (f := fun n j m => elementAvro rec k m >>= fun t => pure (w n j t)) hne
    (fun _ _ => (scoped_bind (scoped_byType (hs _)) fun _ => scoped_pure _).on) fun n j c m hm => ?_).eq (join_id _)
  rw [bind_def, byType_here h, hm]
  cases elementAvro rec k (some m) <;> rfl

private theorem is_avroComposite {base : Str → Prog Str} {rec : Avros} (hs : ∀ ai, ScopedOn (base ai)) (h : Makes base rec)
    {ps : List Node} (hsm : ∀ m ∈ ps, SmallTexts m) (k : Nat) :
    Is (Pos ps 0) (do
      attestString
      let name ← Prog.readString
      let found := findLast '.' name
      let last ← lift (substr name (addW found 1) npos)
      let first ← lift (substr name 0 found)
      attestString true
      let _ ← next
      attestList
      let _ ← next
      attestDescribed
      let desc ← autoNext (byType (base (indent k)))
      let fields ← autoListEnter (fun n => forNext (fun i => do
        let f ← byType (base (indent (k + 1)))
        pure (f ++ (if i < n then aComma else []) ++ nl)))
      pure (aOpen ++ nl ++ indent k ++ aRecord ++ nl ++ indent k ++ aName ++ last ++ aQuoteComma ++ nl
        ++ indent k ++ aNamespace ++ first ++ aQuoteComma ++ nl ++ desc ++ indent k ++ aFields ++ nl ++ fields ++ indent k
        ++ aFieldsEnd ++ nl ++ aClose) : Prog Str)
      id (compositeAvro rec k ps) (Pos ps 4) := by
  unfold compositeAvro
  rw [attestString_false, pure_then]
  refine is_bind (is_word false) fun name hn => ?_
  have hne := word_ne hn
  have hsmall : name.Small := by
    obtain ⟨m, hm⟩ := nth_isSome 0 hne
    refine hsm m (nth_mem hm) m (.self m) name ?_
    rw [hm] at hn
    cases m with
    | mk a ks => cases a <;> simp_all [wordAt, valueOf, Node.val]
  obtain ⟨h1, h2⟩ := split_name name hsmall
  simp only [id]
  refine is_known (a := simpleName name) (fun c _ => by rw [h1]; rfl) ?_
  refine is_known (a := packageName name) (fun c _ => by rw [h2]; rfl) ?_
  rw [← map_unit]
  refine is_bind is_attestString fun _ _ => is_step ?_
  refine is_bind is_attestList fun _ _ => is_step ?_
  refine is_bind is_attestDescribed fun _ hd => ?_
  have he : elementAvro rec k (nth ps 3) = rec k (nth ps 3) := by
    unfold elementAvro
    rw [described_some hd]; rfl
  refine is_bind (is_autoNext ((is_byType h k).eq he)) fun desc _ => ?_
  simp only [fieldLine_lit, record_lit]
  refine (is_bind (h := fun fs => .ok (recordAround k name desc fs)) (is_elements hs h (k + 1) fieldLine hne)
    fun fields _ => is_pure id _).eq ?_
  generalize numberedOf _ (nth ps 4) = r
  cases r <;> rfl

private theorem is_avroObject {ps : List Node} (k : Nat) :
    Is (Pos ps 0) (do
      let s ← autoNext getSymbol
      pure (indent k ++ aAliases ++ s ++ aAliasesEnd ++ nl) : Prog Str) id (objectAvro k ps) (Pos ps 1) := by
  unfold objectAvro
  exact is_bind (is_autoNext is_getSymbol) fun s _ => is_pure id _

private theorem is_avroField {ps : List Node} (hsm : ∀ m ∈ ps, SmallTexts m) (k : Nat) :
    Is (Pos ps 0) (do
      let name ← autoNext getString
      let t ← avroType (indent (k + 1))
      pure (indent k ++ aOpen ++ nl ++ indent (k + 1) ++ aName ++ name ++ aNameEnd ++ nl ++ t ++ indent k ++ aClose) : Prog Str)
      id (fieldAvro k ps) (Pos ps 2) := by
  have small : ∀ {m : Node} {s : Str}, SmallTexts m → stringAt false (some m) = .ok s → s.Small := by
    intro m s hm hs
    refine hm m (.self m) s ?_
    cases m with
    | mk a ks => cases a <;> simp_all [stringAt, valueOf, Node.val]
  unfold fieldAvro
  simp only [field_lit]
  refine is_bind (is_autoNext (is_getString false)) fun name hn => ?_
  have hne := string_ne hn
  obtain ⟨m1, hm1⟩ := nth_isSome 1 hne
  obtain ⟨m2, hm2⟩ := nth_isSome 2 hne
  have key : Is (Pos ps 1) (avroType (indent (k + 1))) id (do
      let type ← stringAt false (nth ps 1)
      let required ← requiredOf (nth ps 2)
      typeShown ((neededType type required).length + 1) (k + 1) (neededType type required)) (Pos ps 2) := by
    unfold avroType
    refine is_bind (is_autoNext (is_getString false)) fun type ht => ?_
    rw [hm1] at ht
    have ht' : type.Small := small (hsm m1 (nth_mem hm1)) ht
    refine is_listEnter (Q := fun _ => True) hm2
      (fun n => scoped_ite (scoped_bind (scoped_getString _) fun _ => scoped_lift _) (scoped_lift _)) ?_
    unfold requiredOf
    rw [hm2]
    simp only [id]
    by_cases hz : (listElements (some m2)).length = 0
    · rw [if_pos hz, hz]
      have hsm' : (neededType type []).Small := needed_small ht' (by unfold Str.Small; decide)
      show Is _ (lift (inferType type [] (indent (k + 1)))) id (typeShown _ _ _) _
      rw [← inferType_shown type [] (k + 1) hsm']
      exact (is_lift _).post fun _ _ => trivial
    · rw [if_neg hz, if_pos (by omega)]
      refine is_bind (is_getString false) fun r hr => ?_
      have hr' : r.Small := by
        obtain ⟨m, hm⟩ := nth_isSome 0 (string_ne hr)
        rw [hm] at hr
        exact small (fun x hx => hsm m2 (nth_mem hm2) x (.part (nth_mem hm) hx)) hr
      simp only [id]
      rw [← inferType_shown type r (k + 1) (needed_small ht' hr')]
      exact (is_lift _).post fun _ _ => trivial
  refine (is_bind (h := fun t => .ok (fieldAround k name t)) key fun t _ => is_pure id _).eq ?_
  simp only [id]
  cases stringAt false (nth ps 1) with
  | ok type =>
    cases requiredOf (nth ps 2) with
    | ok r =>
      simp only [Res.bind_eq, Res.bind]
      cases typeShown ((neededType type r).length + 1) (k + 1) (neededType type r) <;> rfl
    | throw m => rfl
    | ub m => rfl
  | throw m => rfl
  | ub m => rfl

private theorem is_avroClass {base : Str → Prog Str} {rec : Avros} (hs : ∀ ai, ScopedOn (base ai)) (h : Makes base rec)
    {ks xs : List Node} (hn : nth ks 1 = some (.mk .list xs)) (hsm : ∀ m ∈ xs, SmallTexts m) (k : Nat) :
    Is (Pos ks 1) (avroComposite base (indent k)) id (compositeAvro rec (k + 1) xs) (fun _ => True) := by
  unfold avroComposite
  refine past_list hn ?_
  simp only [indent_deeper]
  exact (is_enter hn (
    scoped_bind (scoped_attestString _) fun _ =>
    scoped_guard_bind (scoped_readString _) (guard_readString _) fun _ =>
    scopedOn_bind (scoped_lift _).on fun _ => scopedOn_bind (scoped_lift _).on fun _ =>
    scopedOn_bind (scoped_attestString _).on fun _ => scopedOn_bind scoped_next.on fun _ =>
    scopedOn_bind scoped_list.on fun _ => scopedOn_bind scoped_next.on fun _ =>
    scopedOn_bind scoped_described.on fun _ =>
    scopedOn_bind (scoped_autoNext (scoped_byType (hs _))).on fun _ =>
    scopedOn_bind (scopedOn_autoListEnter fun _ => scoped_forNext fun _ =>
      (scoped_bind (scoped_byType (hs _)) fun _ => scoped_pure _).on) fun _ => (scoped_pure _).on)
    (is_avroComposite hs h hsm (k + 1))).post fun _ _ => trivial

private theorem listEnter_at {α : Type} {p : Nat → Prog α} {c : Cursor} (hc : c.cur.isSome = true)
    (hp : ScopedAt (p c.getList) c.enter.next.2) : autoListEnter p true c = ((p c.getList c.enter.next.2).1, c) := by
  unfold autoListEnter scope
  simp only [Prod.mk.injEq, true_and, if_true]
  exact Cursor.exit_of_keeps hc ((Cursor.next_keeps _).trans hp.1)

private theorem is_avroSchema {base : Str → Prog Str} {rec : Avros} (hs : ∀ ai, ScopedOn (base ai)) (h : Makes base rec)
    {ks xs : List Node} (hn : nth ks 1 = some (.mk .list xs)) (k : Nat) :
    Is (Pos ks 1) (avroSchema base (indent k)) id (schemaAvro rec k xs) (fun _ => True) := by
  unfold avroSchema
  refine past_list hn ?_
  intro c hc
  refine ⟨?_, fun _ _ => trivial⟩
  have hcur : c.cur = some (.mk .list xs) := hc.1.trans hn
  have hp := pos_enter hcur
  have hl : c.getList = xs.length := by rw [getList_at hcur]; rfl
  simp only [typeLine_lit]
  have hsc : ScopedOn (autoListEnter (fun m => forNext (fun j => do
        let x ← byType (base (indent k))
        pure (typeLine m j x)))) := scopedOn_autoListEnter fun _ => scoped_forNext fun _ =>
      (scoped_bind (scoped_byType (hs _)) fun _ => scoped_pure _).on
  unfold schemaAvro
  by_cases hx : xs.length = 1
  · have hne : xs ≠ [] := by rintro rfl; cases hx
    have hk : Node.kids (.mk .list xs) = xs := rfl
    rw [hk] at hp
    rw [listEnter_at (by rw [hcur]; rfl), hl, if_pos hx, if_pos hx, (is_elements hs h k typeLine hne _ hp).1]
    · generalize numberedOf _ (nth xs 0) = r
      cases r <;> rfl
    · rw [hl, if_pos hx]
      refine hsc _ ?_
      obtain ⟨m, hm⟩ := nth_isSome 0 hne
      rw [hp.1, hm]; rfl
  · rw [listEnter_at (by rw [hcur]; rfl), hl, if_neg hx, if_neg hx]
    · rfl
    · rw [hl, if_neg hx]
      exact scoped_ub _ _

private theorem is_avroFieldIn {ks xs : List Node} (hn : nth ks 1 = some (.mk .list xs)) (hsm : ∀ m ∈ xs, SmallTexts m)
    (k : Nat) : Is (Pos ks 1) (avroField (indent k)) id (fieldAvro k xs) (fun _ => True) := by
  unfold avroField
  refine past_list hn ?_
  rw [indent_deeper]
  have hsc : ∀ n : Nat, Scoped (do
      let name ← autoNext getString
      let t ← avroType (indent (k + 1))
      pure (indent k ++ aOpen ++ nl ++ indent (k + 1) ++ aName ++ name ++ aNameEnd ++ nl ++ t ++ indent k ++ aClose) : Prog Str) :=
    fun _ => scoped_guard_bind (scoped_autoNext (scoped_getString _)) (guard_autoNext (guard_getString _)) fun _ =>
      scopedOn_bind (scopedOn_avroType _) fun _ => (scoped_pure _).on
  have key := is_listEnter hn hsc (is_avroField hsm k)
  exact key.post fun _ _ => trivial

private theorem is_avroFor {base : Str → Prog Str} {rec : Avros} (hs : ∀ ai, ScopedOn (base ai)) (h : Makes base rec)
    {ks xs : List Node} (hn : nth ks 1 = some (.mk .list xs)) (hsm : ∀ m ∈ xs, SmallTexts m) (k id : Nat) :
    Is (Pos ks 1) (avroFor base id (indent k)) _root_.id (insideAvro rec k id (nth ks 1)) (fun _ => True) := by
  have hd : ∀ k ≤ 22, descId k = cordaId k := fun k hk => descId_is hk
  have hrec : Is (Pos ks 1) (base (indent k)) _root_.id (rec k (nth ks 1)) (fun _ => True) :=
    (is_here fun c hc => by rw [hn] at hc ⊢; exact h _ _ _ hc).post fun _ _ => trivial
  have hk : kidsOf (nth ks 1) = xs := by rw [hn]; rfl
  unfold avroFor insideAvro
  rw [← hd 1 (by decide), ← hd 2 (by decide), ← hd 3 (by decide), ← hd 4 (by decide), ← hd 5 (by decide),
    ← hd 6 (by decide), ← hd 7 (by decide), ← hd 8 (by decide), ← hd 9 (by decide), ← hd 10 (by decide),
    ← hd 11 (by decide)]
  by_cases h0 : id = 22
  · subst h0
    rw [if_pos rfl]
    iterate 6 rw [if_neg (by decide)]
    rw [if_pos (.inl rfl)]
    exact hrec
  rw [if_neg h0]
  by_cases h1 : id = descId 1
  · rw [if_pos h1, if_pos h1, hk]
    unfold avroEnvelope
    refine past_list hn ?_
    intro c hc
    have hcur : c.cur = some (.mk .list xs) := hc.1.trans hn
    rw [autoEnter_eq (scoped_autoNext (scoped_byType (hs _))) (by rw [hcur]; rfl)]
    refine ⟨?_, fun _ _ => trivial⟩
    have hp := (pos_enter hcur).next
    exact (is_autoNext (is_byType h k) _ hp).1
  rw [if_neg h1, if_neg h1]
  by_cases h2 : id = descId 2
  · rw [if_pos h2, if_pos h2, hk]
    exact is_avroSchema hs h hn k
  rw [if_neg h2, if_neg h2]
  by_cases h3 : id = descId 3
  · rw [if_pos h3, if_pos h3, hk]
    unfold avroObject
    refine past_list hn ?_
    intro c hc
    have hcur : c.cur = some (.mk .list xs) := hc.1.trans hn
    rw [autoListEnter_eq (fun _ => scoped_bind scoped_next fun _ => scoped_bind (scoped_autoNext scoped_getSymbol) fun _ =>
      scoped_pure _) (by rw [hcur]; rfl)]
    simp only [Bool.false_eq_true, if_false]
    refine ⟨?_, fun _ _ => trivial⟩
    rw [bind_of_ok (show Prog.next c.enter = (.ok c.enter.next.1, c.enter.next.2) from rfl)]
    exact (is_avroObject k _ (pos_enter hcur)).1
  rw [if_neg h3, if_neg h3]
  by_cases h4 : id = descId 4
  · rw [if_pos h4, if_pos h4, hk]
    exact is_avroFieldIn hn hsm k
  rw [if_neg h4, if_neg h4]
  by_cases h5 : id = descId 5
  · rw [if_pos h5, if_pos h5, hk]
    exact is_avroClass hs h hn hsm k
  rw [if_neg h5, if_neg h5]
  by_cases h6 : id = descId 6
  · rw [if_pos h6, if_pos h6]
    exact (is_pure _root_.id _).post fun _ _ => trivial
  rw [if_neg h6, if_neg h6]
  by_cases h7 : id = descId 7
  · rw [if_pos h7, if_pos (.inr (.inl h7))]; exact hrec
  by_cases h8 : id = descId 8
  · rw [if_neg h7, if_pos h8, if_pos (.inr (.inr (.inl h8)))]; exact hrec
  by_cases h9 : id = descId 9
  · rw [if_neg h7, if_neg h8, if_pos h9, if_pos (.inr (.inr (.inr (.inl h9))))]; exact hrec
  by_cases h10 : id = descId 10
  · rw [if_neg h7, if_neg h8, if_neg h9, if_pos h10, if_pos (.inr (.inr (.inr (.inr (.inl h10)))))]; exact hrec
  by_cases h11 : id = descId 11
  · rw [if_neg h7, if_neg h8, if_neg h9, if_neg h10, if_pos h11, if_pos (.inr (.inr (.inr (.inr (.inr h11)))))]; exact hrec
  rw [if_neg h7, if_neg h8, if_neg h9, if_neg h10, if_neg h11, if_neg (by rintro (h | h | h | h | h | h) <;> contradiction)]
  exact is_ub _ _

/-- Two ways to find texts agree on all nodes of a kind. -/
private def Agree (rec rec' : Avros) (P : Node → Prop) : Prop := ∀ k m, P m → rec k (some m) = rec' k (some m)

private theorem agree_element {rec rec' : Avros} {P : Node → Prop} (ha : Agree rec rec' P) (k : Nat) {n : Option Node}
    (hn : ∀ m, n = some m → P m) : elementAvro rec k n = elementAvro rec' k n := by
  cases n with
  | none => rfl
  | some m =>
    unfold elementAvro
    rw [ha k m (hn m rfl)]

private theorem agree_inside {rec rec' : Avros} {P : Node → Prop} (hP : ∀ m, P m → ∀ x ∈ m.kids, P x)
    (ha : Agree rec rec' P) (k id : Nat) {n : Node} (hn : P n) :
    insideAvro rec k id (some n) = insideAvro rec' k id (some n) := by
  have hk : ∀ i m, nth (kidsOf (some n)) i = some m → P m := fun i m hm => hP n hn m (nth_mem hm)
  have hkk : ∀ i m, m ∈ kidsOf (nth (kidsOf (some n)) i) → P m := fun i m hm => by
    cases hx : nth (kidsOf (some n)) i with
    | none => rw [hx] at hm; cases hm
    | some x => rw [hx] at hm; exact hP x (hk i x hx) m hm
  have e := agree_element ha k (hk 1)
  have s : schemaAvro rec k (kidsOf (some n)) = schemaAvro rec' k (kidsOf (some n)) := by
    unfold schemaAvro
    have : numberedOf (fun j t => do
        let x ← elementAvro rec k t
        pure (typeLine (listElements (nth (kidsOf (some n)) 0)).length j x)) (nth (kidsOf (some n)) 0)
      = numberedOf (fun j t => do
        let x ← elementAvro rec' k t
        pure (typeLine (listElements (nth (kidsOf (some n)) 0)).length j x)) (nth (kidsOf (some n)) 0) :=
      numberedOf_congr fun i m hm => by
        rw [agree_element ha _ (n := some m) fun x hx => by obtain rfl := Option.some.inj hx; exact hkk 0 _ hm]
    rw [this]
  have c : compositeAvro rec (k + 1) (kidsOf (some n)) = compositeAvro rec' (k + 1) (kidsOf (some n)) := by
    unfold compositeAvro
    have h1 : numberedOf (fun i m => do
        let t ← elementAvro rec (k + 1 + 1) m
        pure (fieldLine (listElements (nth (kidsOf (some n)) 4)).length i t)) (nth (kidsOf (some n)) 4)
      = numberedOf (fun i m => do
        let t ← elementAvro rec' (k + 1 + 1) m
        pure (fieldLine (listElements (nth (kidsOf (some n)) 4)).length i t)) (nth (kidsOf (some n)) 4) :=
      numberedOf_congr fun i m hm => by
        rw [agree_element ha _ (n := some m) fun x hx => by obtain rfl := Option.some.inj hx; exact hkk 4 _ hm]
    rw [h1]
    cases hx : nth (kidsOf (some n)) 3 with
    | none => rfl
    | some m => rw [ha _ m (hk 3 m hx)]
  unfold insideAvro
  rw [e, s, c, ha k n hn]

private theorem small_part (m : Node) (h : SmallTexts m) : ∀ x ∈ m.kids, SmallTexts x :=
  fun _ hx y hy => h y (.part hx hy)

/-- What the program makes of a node. -/
private def realAvro (fuel : Nat) : Avros
  | _, none => .ub ""
  | k, some n => avroNode fuel (indent k) n

private theorem makes_real (fuel : Nat) : Makes (avroBase fuel) (realAvro fuel) := fun _ _ _ hc => avroBase_at fuel _ hc

private theorem agree_avro : (fuel : Nat) → Agree (realAvro fuel) (avroIn fuel) SmallTexts
  | 0 => fun _ _ _ => rfl
  | fuel + 1 => by
    intro k n hsm
    have ih := agree_avro fuel
    have hs := scopedOn_avroBase fuel
    show (avroBase (fuel + 1) (indent k) (Cursor.root n)).1 = _
    have hc : (Cursor.root n).cur = some n := rfl
    rw [avroBase, avroIn, autoEnter_eq (scoped_avroBody hs _) (by rw [hc]; rfl)]
    simp only [Bool.false_eq_true, if_false]
    have hp := pos_enter hc
    generalize (Cursor.root n).enter.next.2 = d at hp
    have hv := val_at hp.1
    have ht := hp.type
    unfold avroBody
    rw [bind_of_ok (show look Cursor.type d = (.ok d.type, d) from rfl), ht]
    show _ = (match valueOf (nth n.kids 0) with
      | some (.ulong id) => _
      | some (.symbol s) => _
      | _ => _)
    cases ha : valueOf (nth n.kids 0) with
    | none => rfl
    | some a =>
      rw [ha] at hv
      cases a with
      | ulong id =>
        show ((readUint64 >>= _) d).1 = _
        have h1 : readUint64 d = (.ok id, d.next.2) := by
          simp [readUint64, autoNext, look, getUlong, hv]
        rw [bind_of_ok h1]
        have hp1 := hp.next
        generalize d.next.2 = e at hp1
        have key : Is (Pos n.kids 1) (attestList >>= fun _ => avroFor (avroBase fuel) id (indent k)) _root_.id
            (listParts (nth n.kids 1) >>= fun _ => insideAvro (avroIn fuel) k id (nth n.kids 1)) (fun _ => True) := by
          refine is_bind is_attestList fun _ hl => ?_
          have hn := list_some hl
          have hm := small_part n hsm _ (nth_mem hn)
          refine (is_avroFor hs (makes_real fuel) hn (small_part _ hm) k id).eq ?_
          rw [hn]
          exact agree_inside small_part ih k id hm
        have := (key e hp1).1
        rw [id_map] at this
        exact this
      | symbol s =>
        show ((look getSymbolRaw >>= _) d).1 = _
        rw [bind_of_ok (show look getSymbolRaw d = (.ok s, d) from by simp [look, getSymbolRaw, hv])]
        rfl
      | _ => rfl

/-- **C91, elements.** Dumping a schema element in the Avro form, at any depth of indentation, with the cursor anywhere on a
node, has the outcome described in the specification, and leaves the cursor there. -/
theorem C91_element (depth k : Nat) (c : Cursor) (n : Node) (hc : c.cur = some n) (hs : SmallTexts n) :
    avroBase depth (List.replicate (2 * k) ' ') c = (avroIn depth k (some n), c) := by
  show avroBase depth (indent k) c = _
  rw [makes_real depth k c n hc, agree_avro depth k n hs]

/-- **C91.** Dumping the schema of any tree in the Avro form has the outcome described in the specification: the same text,
the same exception or the same undefined behaviour. -/
theorem C91_any (c : Cursor) (n : Node) (hc : c.cur = some n) (hs : SmallTexts n) : (dumpSchema .avro c).1 = avroDump n := by
  unfold dumpSchema avroDump
  have ht : c.type = n.val.type := by simp [Cursor.type, hc]
  have hf : c.fuel = n.height := by rw [Cursor.fuel, hc]
  rw [bind_of_ok (show look Cursor.type c = (.ok c.type, c) from rfl), ht, hf]
  have h := C91_element n.height 0 c n hc hs
  cases hv : n.val with
  | described =>
    simp only [Atom.type, ne_eq, not_true]
    show (avroBase n.height (List.replicate (2 * 0) ' ') c).1 = _
    rw [h]
  | _ => rfl

/-- **C91, no value under the cursor**: then there is an exception. -/
theorem C91_none (c : Cursor) (hc : c.cur = none) : (dumpSchema .avro c).1 = .throw "Can only dispatch described objects" := by
  unfold dumpSchema
  rw [bind_of_ok (show look Cursor.type c = (.ok c.type, c) from rfl)]
  simp [Cursor.type, hc, Prog.throw]

/-- **C91, the bound on the nesting is no restriction**: anything from the height of the tree gives the same. -/
theorem C91_depth (k d : Nat) (n : Node) (h : n.height ≤ d) : avroIn d k (some n) = avroIn n.height k (some n) := by
  have key : ∀ d d' k (n : Node), n.height ≤ d → n.height ≤ d' → avroIn d k (some n) = avroIn d' k (some n) := by
    intro d
    induction d with
    | zero => intro d' k n hn; exact absurd hn (by cases n; simp [Node.height])
    | succ d ih =>
      intro d' k n hn hn'
      cases d' with
      | zero => exact absurd hn' (by cases n; simp [Node.height])
      | succ d' =>
        have hh : ∀ m, nth (kidsOf (some n)) 1 = some m → m.height ≤ min d d' := fun m hm => by
          have := nth_height (n := n) hm
          omega
        rw [avroIn, avroIn]
        cases hx : nth (kidsOf (some n)) 1 with
        | none =>
          have : listParts none = .throw "Expected a List" := rfl
          rw [this]; rfl
        | some x =>
          rw [hx] at hh
          have := fun id => agree_inside (rec := avroIn d) (rec' := avroIn d') (P := fun m => m.height ≤ min d d')
            (fun m hm y hy => Nat.le_of_lt (Nat.lt_of_lt_of_le (node_height_lt hy) hm))
            (fun k m hm => ih d' k m (Nat.le_trans hm (Nat.min_le_left _ _)) (Nat.le_trans hm (Nat.min_le_right _ _))) k id
            (hh x rfl)
          simp only [this]
  exact key d n.height k n h (Nat.le_refl _)

/-! The outcomes on names and trees that are not what Corda would write. -/

/-- **C91, odd names**: a list without brackets loses its last letter; a map without a comma is an exception; an empty name,
an array of nothing and a list of nothing read before the start of the string; a container that is not in front is a name. -/
theorem C91_odd_names :
    typeShown 99 0 "java.util.List".toList = .ok (tArray ++ tItems ++ "java.util.Lis\n".toList)
      ∧ typeShown 99 0 "java.util.Map<int>".toList = .throw "basic_string::substr"
      ∧ typeShown 99 0 [] = .ub "read before the start of the string"
      ∧ typeShown 99 0 "[]".toList = .ub "read before the start of the string"
      ∧ typeShown 99 0 "java.util.List<>".toList = .ub "read before the start of the string"
      ∧ typeShown 99 0 "java.util.Set<java.util.List<int>>".toList
        = .ok (tType ++ "java.util.Set<java.util.List<int>>".toList ++ tTypeEnd)
      ∧ typeShown 99 0 "java.util.List<java.lang.Integer>[]".toList
        = .ok (tArray ++ tItems ++ "{ \n".toList ++ "  ".toList ++ tArray ++ "  ".toList ++ tItems ++ "int\n}\n".toList) := by
  decide +kernel

/-- A list of types with one type, in a schema. -/
private def withType (t : Node) : Node := element 2 [.mk .list [t]]

/-- **C91, not only schemas**: what comes of a schema with two lists (an assertion), of one whose only part is no list (no
types are found, which is no error); of a type that is not described, one that is a choice, one that is restricted (nothing);
of a field as a type; of a fingerprint that has a text instead of a symbol. -/
theorem C91_odd :
    avroDump (element 2 [.mk .list [], .mk .list []]) = .ub "assert"
      ∧ avroDump (element 2 [.mk .null []]) = .ok []
      ∧ avroDump (withType (.mk .null [])) = .ub "null registry entry"
      ∧ avroDump (withType (element 7 [str "A".toList])) = .throw "Unexpected Type"
      ∧ avroDump (withType (element 6 [])) = .ok []
      ∧ avroDump (withType (element 4 [str "a".toList, str "int".toList, .mk .list []]))
        = .ok "{\n  \"name\" : \"a\", \n  \"type\" : \"int\"\n}\n".toList
      ∧ avroDump (withType (element 4 [str "a".toList, str "*".toList, .mk .list []]))
        = .ub "read before the start of the string"
      ∧ avroDump (element 3 [sym "x".toList]) = .ok "\"aliases\" : [ \"x\" ],\n".toList := by
  decide +kernel

#print axioms C91_names
#print axioms C91_name_depth
#print axioms C91_element
#print axioms C91_any
#print axioms C91_none
#print axioms C91_depth
#print axioms C91_odd_names
#print axioms C91_odd

end Corda.Props
