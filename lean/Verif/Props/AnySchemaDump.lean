import Verif.Lemmas.AnyTree
import Verif.Props.SchemaDump

/-
C90: what dumping the schema of any tree as raw text makes.
-/

namespace Corda.Props
open Corda Prog Spec

/-- A way to dump that makes the given lines of whatever is there. -/
private def Draws (base : Str → Prog Str) (rec : Lines) : Prop :=
  ∀ k c n, c.cur = some n → base (ind k) c = (page <$> rec k (some n), c)

private theorem byType_here {base : Str → Prog Str} {rec : Lines} (h : Draws base rec) (k : Nat) (c : Cursor) :
    byType (base (ind k)) c = (page <$> elementLines rec k c.cur, c) := by
  unfold byType elementLines
  rw [bind_of_ok (show look Cursor.type c = (.ok c.type, c) from rfl)]
  cases hc : c.cur with
  | none => simp only [Cursor.type, hc]; rfl
  | some n =>
    have ht : c.type = n.val.type := by simp [Cursor.type, hc]
    rw [ht]
    cases n with
    | mk a ks => cases a <;> first | rfl | exact h k c _ hc

private theorem is_byType {base : Str → Prog Str} {rec : Lines} (h : Draws base rec) (k : Nat) {ps : List Node} {i : Nat} :
    Is (Pos ps i) (byType (base (ind k))) id (page <$> elementLines rec k (nth ps i)) (Pos ps i) :=
  is_here fun c hc => by rw [byType_here h, hc]

private theorem is_strings {ps : List Node} {i : Nat} (hne : ps ≠ []) (g : Str → Str) :
    Is (Pos ps i) (autoListEnter (fun _ => forNext (fun _ => do
      let s ← getString
      pure (g s)))) id ((fun ss => ss.flatMap g) <$> eachOf (stringAt false) (nth ps i)) (Pos ps i) := by
  rw [← numberedOf_const]
  refine is_forNext (f := fun _ _ => stringAt false) hne
    (fun _ _ => (scoped_bind (scoped_getString _) fun _ => scoped_pure _).on) fun n i c m hm => ?_
  rw [bind_def, string_here c m hm]
  cases stringAt false (some m) <;> rfl

private theorem element_at {base : Str → Prog Str} {rec : Lines} (h : Draws base rec) (k : Nat) (g : List Line → Str)
    (w : Str → Str) (l : Line) (hg : ∀ ls, w (page ls) = g (l :: ls)) (c : Cursor) (m : Node) (hm : c.cur = some m) :
    (byType (base (ind k)) >>= fun t => pure (w t)) c
      = (g <$> (elementLines rec k (some m) >>= fun ls => pure (l :: ls)), c) := by
  rw [bind_def, byType_here h, hm]
  cases elementLines rec k (some m) with
  | ok ls => simp only [Res.map_eq, Res.bind_eq, Res.pure_eq, Res.bind, Prog.pure_def, hg]
  | throw m => rfl
  | ub m => rfl

private theorem attestString_false : (attestString false : Prog Unit) = pure () := by
  funext c
  unfold attestString
  by_cases h : c.type = .string <;> simp [h] <;> rfl

private theorem pure_then {α β : Type} (a : α) (k : α → Prog β) : ((pure a : Prog α) >>= k) = k a := rfl

private theorem is_attestString {ps : List Node} {i : Nat} :
    Is (Pos ps i) (attestString true >>= fun _ => autoNext (getString true)) id (stringAt true (nth ps i)) (Pos ps (i + 1)) := by
  have h := is_autoNext (is_getString (ps := ps) (i := i) true)
  intro c hc
  have hv := val_at hc.1
  have ht : c.type = match valueOf (nth ps i) with | some a => a.type | none => .invalid := hc.type
  by_cases hx : c.type = .string ∨ c.type = .null
  · have : attestString true c = (.ok (), c) := by
      unfold attestString
      rcases hx with hx | hx <;> simp [hx]
    rw [bind_of_ok this]
    exact h c hc
  · have : attestString true c = (.throw "Expected a String", c) := by
      unfold attestString
      simp_all
    rw [bind_of_throw this]
    refine ⟨?_, fun a ha => by cases ha⟩
    unfold stringAt
    cases hy : valueOf (nth ps i) with
    | none => rfl
    | some a => rw [hy] at ht; cases a <;> simp_all [Atom.type]

private theorem boolStr_bit (b : Bool) : boolStr b = bit b := by cases b <;> decide

private theorem page_one (k : Nat) (s : Str) : page [⟨k, s⟩] = ind k ++ (s ++ nl) := by
  rw [page_cons, page_nil, List.append_nil]

private theorem is_object {ps : List Node} (k : Nat) :
    Is (Pos ps 0) (do
      let s ← autoNext getSymbol
      let d ← look Cursor.shown
      pure (ind k ++ dObj1 ++ s ++ nl ++ ind k ++ dObj2 ++ d ++ nl) : Prog Str) id (page <$> objectShown k ps)
      (Pos ps 1) := by
  unfold objectShown
  refine is_then (is_autoNext is_getSymbol) fun s hs => ?_
  have hne : ps ≠ [] := by rintro rfl; cases hs
  intro c hc
  obtain ⟨m, hm⟩ := nth_isSome 1 hne
  have : look Cursor.shown c = (.ok (briefOf (nth ps 1)), c) := by
    obtain ⟨p, cu, r, u⟩ := c
    have := hc.1
    simp only [hm] at this
    subst this
    rw [hm]
    simp [look, briefOf, shown_brief]
  rw [bind_of_ok this]
  refine ⟨?_, fun _ _ => hc⟩
  rw [id_map]
  simp only [id, Res.map_eq, Res.pure_eq, Res.bind, Prog.pure_def, page_cons, page_nil, List.append_assoc, List.append_nil]
  rfl

private theorem requires_around (k : Nat) {ps : List Node} {i : Nat} (hne : ps ≠ []) :
    Is (Pos ps i) (rawRequires (ind k)) id
      ((fun ss => ind k ++ dField3 ++ natStr (listElements (nth ps i)).length ++ nl ++ ss.flatMap fun s => ind (k + 1) ++ s ++ nl)
        <$> eachOf (stringAt false) (nth ps i)) (Pos ps i) := by
  rw [← numberedOf_const]
  refine is_here fun c hc => ?_
  obtain ⟨m, hm⟩ := nth_isSome i hne
  rw [hm] at hc ⊢
  unfold rawRequires
  rw [deeper_ind]
  refine forNext_around (f := fun _ _ => stringAt false) (w := fun n t => ind k ++ dField3 ++ natStr n ++ nl ++ t)
    (fun _ _ => (scoped_bind (scoped_getString _) fun _ => scoped_pure _).on) (fun n i c m hm => ?_) hc
  rw [bind_def, string_here c m hm]
  cases stringAt false (some m) <;> rfl

private theorem is_rawField {ps : List Node} (k : Nat) :
    Is (Pos ps 0) (do
      let name ← autoNext getString
      let type ← autoNext getString
      let req ← rawRequires (ind k)
      let _ ← next
      attestString true
      let def_ ← autoNext (getString true)
      let label ← autoNext (getString true)
      let mandatory ← autoNext getBoolean
      let multiple ← autoNext getBoolean
      pure (ind k ++ dField1 ++ name ++ nl ++ ind k ++ dField2 ++ type ++ nl ++ req
        ++ ind k ++ dField4 ++ def_ ++ nl ++ ind k ++ dField5 ++ label ++ nl
        ++ ind k ++ dField6 ++ boolStr mandatory ++ nl ++ ind k ++ dField7 ++ boolStr multiple ++ nl) : Prog Str)
      id (page <$> fieldShown k ps) (Pos ps 7) := by
  unfold fieldShown
  refine is_then (is_autoNext (is_getString false)) fun name hn => ?_
  have hne := string_ne hn
  refine is_then (is_autoNext (is_getString false)) fun type _ => ?_
  refine is_after (requires_around k hne) fun req _ => is_step ?_
  rw [← prog_assoc]
  refine is_then is_attestString fun d _ => ?_
  refine is_then (is_autoNext (is_getString true)) fun l _ => ?_
  refine is_then (is_autoNext is_getBoolean) fun m _ => ?_
  refine is_then (is_autoNext is_getBoolean) fun u _ => ?_
  refine is_done ?_
  have : page (req.map fun r => (⟨k + 1, r⟩ : Line)) = req.flatMap fun s => ind (k + 1) ++ s ++ nl := by
    unfold page
    rw [List.flatMap_map]
    simp [Line.show, ind, nl]
  simp only [page_append, page_cons, page_nil, this, boolStr_bit, id, List.cons_append, List.nil_append, List.append_assoc,
    List.append_nil]
  rfl

private theorem is_rawComposite {base : Str → Prog Str} {rec : Lines} (hs : ∀ ai, ScopedOn (base ai)) (h : Draws base rec)
    {ps : List Node} (k : Nat) :
    Is (Pos ps 0) (do
      attestString
      let name ← Prog.readString
      attestString
      let label ← Prog.readString true
      attestList
      let provides ← autoListEnter (fun _ => forNext (fun _ => do
        let s ← getString
        pure (ind k ++ s ++ dBlank)))
      let _ ← next
      attestDescribed
      let desc ← autoNext (byType (base (ind (k + 1))))
      let fields ← autoListEnter (fun n => forNext (fun i => do
        let f ← byType (base (ind (k + 2)))
        pure (ind (k + 1) ++ natStr i ++ dSlash ++ natStr n ++ dClose ++ nl ++ f)))
      pure (ind k ++ dComp1 ++ name ++ nl ++ ind k ++ dComp2 ++ label ++ dQuote ++ nl ++ ind k ++ dProvides ++ provides
        ++ dClose ++ nl ++ ind k ++ dComp4 ++ nl ++ desc ++ ind k ++ dComp5 ++ nl ++ fields) : Prog Str)
      id (page <$> compositeShown rec k ps) (Pos ps 4) := by
  unfold compositeShown
  rw [attestString_false, pure_then]
  refine is_then (is_word false) fun name hn => ?_
  have hne := word_ne hn
  rw [pure_then]
  refine is_then (is_word true) fun label _ => ?_
  refine is_then is_attestList fun _ _ => ?_
  refine is_after (is_strings hne _) fun prov _ => is_step ?_
  refine is_then is_attestDescribed fun _ hd => ?_
  have he : elementLines rec (k + 1) (nth ps 3) = rec (k + 1) (nth ps 3) := by
    unfold elementLines
    rw [described_some hd]; rfl
  refine is_after (f := page) (is_autoNext ((is_byType h (k + 1)).eq (by rw [he]))) fun desc _ => ?_
  refine is_after (is_forNext (g := page) (f := fun n i m => elementLines rec (k + 2) m >>= fun ls =>
    pure (⟨k + 1, outOf i n⟩ :: ls)) hne
    (fun _ _ => (scoped_bind (scoped_byType (hs _)) fun _ => scoped_pure _).on) fun n i c m hm => ?_) fun fields _ => ?_
  · refine element_at h (k + 2) page _ _ (fun ls => ?_) c m hm
    rw [page_cons]
    simp only [outOf, List.append_assoc]
    rfl
  · refine is_done ?_
    simp only [page_append, page_cons, page_nil, page_flatten, id, List.cons_append, List.nil_append, List.append_assoc,
      List.append_nil]
    rfl

private theorem is_rawRestricted {base : Str → Prog Str} {rec : Lines} (h : Draws base rec)
    {ps : List Node} (k : Nat) :
    Is (Pos ps 0) (do
      let name ← Prog.readString
      let label ← Prog.readString true
      let provides ← autoListEnter (fun _ => forNext (fun _ => do
        let s ← getString
        pure (s ++ dBlank)))
      let _ ← next
      let source ← Prog.readString
      let desc ← autoNext (byType (base (ind (k + 1))))
      pure (ind k ++ dRestr1 ++ name ++ nl ++ ind k ++ dRestr2 ++ label ++ nl ++ ind k ++ dProvides ++ provides ++ dClose ++ nl
        ++ ind k ++ dRestr4 ++ source ++ nl ++ ind k ++ dRestr5 ++ nl ++ desc) : Prog Str)
      id (page <$> restrictedShown rec k ps) (Pos ps 5) := by
  unfold restrictedShown
  refine is_then (is_word false) fun name hn => ?_
  have hne := word_ne hn
  refine is_then (is_word true) fun label _ => ?_
  refine is_after (is_strings hne _) fun prov _ => is_step ?_
  refine is_then (is_word false) fun source _ => ?_
  refine is_after (f := page) (is_autoNext (is_byType h (k + 1))) fun desc _ => ?_
  refine is_done ?_
  simp only [page_append, page_cons, page_nil, id, List.cons_append, List.nil_append, List.append_assoc,
      List.append_nil]
  rfl

private theorem is_rawEnvelope {base : Str → Prog Str} {rec : Lines} (h : Draws base rec)
    {ps : List Node} (k : Nat) :
    Is (Pos ps 0) (do
      let payload ← autoNext (byType (base (ind (k + 1))))
      let schema ← autoNext (byType (base (ind (k + 1))))
      pure (ind k ++ dEnv1 ++ nl ++ payload ++ ind k ++ dEnv2 ++ nl ++ schema) : Prog Str)
      id (page <$> envelopeShown rec k ps) (Pos ps 2) := by
  unfold envelopeShown
  refine is_after (f := page) (is_autoNext (is_byType h (k + 1))) fun payload _ => ?_
  refine is_after (f := page) (is_autoNext (is_byType h (k + 1))) fun schema _ => ?_
  refine is_done ?_
  simp only [page_append, page_cons, page_nil, List.cons_append, List.nil_append, List.append_assoc,
      List.append_nil]
  rfl

private theorem types_here {base : Str → Prog Str} {rec : Lines} (hs : ∀ ai, ScopedOn (base ai)) (h : Draws base rec)
    (k i n : Nat) (c : Cursor) (m : Node) (hm : c.cur = some m) :
    (do
      attestList
      autoListEnter (fun m => do
        let ts ← forNext (fun j => do
          let t ← byType (base (ind (k + 2)))
          pure (ind (k + 1) ++ natStr i ++ dColon ++ natStr j ++ dSlash ++ natStr m ++ dCloseBlank ++ nl ++ t))
        pure (ind k ++ natStr i ++ dSlash ++ natStr n ++ dClose ++ dEntries ++ natStr m ++ nl ++ ts)) : Prog Str) c
      = (page <$> (do
        let ts ← listParts (some m)
        let types ← numberedOf (fun j t => do
          let ls ← elementLines rec (k + 2) t
          pure (⟨k + 1, dec i ++ ":".toList ++ outOf j ts.length ++ " ".toList⟩ :: ls)) (some m)
        pure (⟨k, outOf i n ++ " list: entries: ".toList ++ dec ts.length⟩ :: types.flatten)), c) := by
  cases m with
  | mk a ks =>
    by_cases ha : a = .list
    · subst ha
      rw [bind_of_ok (show attestList c = (.ok (), c) from attest_ok (by rw [Cursor.type, hm]; rfl))]
      rw [forNext_around (g := page) (f := fun l j t => elementLines rec (k + 2) t >>= fun ls =>
        pure (⟨k + 1, dec i ++ ":".toList ++ outOf j l ++ " ".toList⟩ :: ls))
        (w := fun l t => ind k ++ natStr i ++ dSlash ++ natStr n ++ dClose ++ dEntries ++ natStr l ++ nl ++ t)
        (fun _ _ => (scoped_bind (scoped_byType (hs _)) fun _ => scoped_pure _).on) (fun l j c m hm => ?_) hm]
      · have hp : listParts (some (.mk .list ks)) = .ok ks := rfl
        have hl : listElements (some (.mk .list ks)) = ks := rfl
        rw [hp, hl]
        show _ = (page <$> (numberedOf _ _ >>= fun types => _), c)
        cases numberedOf (fun j t => elementLines rec (k + 2) t >>= fun ls =>
          (pure (⟨k + 1, dec i ++ ":".toList ++ outOf j ks.length ++ " ".toList⟩ :: ls) : Res (List Line)))
            (some (.mk .list ks)) with
        | ok ts =>
          simp only [Res.map_eq, Res.bind_eq, Res.pure_eq, Res.bind, page_cons, page_flatten, outOf, List.append_assoc]
          rfl
        | throw m => rfl
        | ub m => rfl
      · refine element_at h (k + 2) page _ _ (fun ls => ?_) c m hm
        rw [page_cons]
        simp only [outOf, List.append_assoc]
        rfl
    · rw [bind_of_throw (show attestList c = (.throw "Expected a List", c) from attest_no (by
        rw [Cursor.type, hm]; cases a <;> simp_all [Atom.type, Node.val]))]
      have hp : listParts (some (.mk a ks)) = .throw "Expected a List" := by
        unfold listParts valueOf; cases a <;> simp_all [Node.val]
      rw [hp]; rfl

private theorem past_list {ks xs : List Node} {i : Nat} (hn : nth ks i = some (.mk .list xs)) {q : Prog Str} {r : Res Str}
    {Q : Cursor → Prop} (h : Is (Pos ks i) q id r Q) : Is (Pos ks i) (attestList >>= fun _ => q) id r Q := by
  intro c hc
  rw [bind_of_ok (show attestList c = (.ok (), c) from attest_ok (by rw [Cursor.type, hc.1, hn]; rfl))]
  exact h c hc

private theorem is_rawFor {base : Str → Prog Str} {rec : Lines} (hs : ∀ ai, ScopedOn (base ai)) (h : Draws base rec)
    {ks xs : List Node} (hn : nth ks 1 = some (.mk .list xs)) (k id : Nat) :
    Is (Pos ks 1) (rawFor base id (ind (k + 1))) _root_.id (page <$> insideShown rec k id (nth ks 1)) (Pos ks 1) := by
  have hd : ∀ k ≤ 22, descId k = cordaId k := fun k hk => descId_is hk
  have hrec : Is (Pos ks 1) (base (ind (k + 1))) _root_.id (page <$> rec (k + 1) (nth ks 1)) (Pos ks 1) :=
    is_here fun c hc => by rw [hn] at hc ⊢; exact h _ _ _ hc
  have hk : kidsOf (nth ks 1) = xs := by rw [hn]; rfl
  unfold rawFor insideShown
  rw [← hd 1 (by decide), ← hd 2 (by decide), ← hd 3 (by decide), ← hd 4 (by decide), ← hd 5 (by decide),
    ← hd 6 (by decide), ← hd 7 (by decide), ← hd 8 (by decide), ← hd 9 (by decide), ← hd 10 (by decide),
    ← hd 11 (by decide)]
  by_cases h0 : id = 22
  · subst h0
    rw [if_pos rfl]
    iterate 6 rw [if_neg (by decide)]
    rw [if_pos (.inl rfl)]
    exact hrec
  rw [if_neg h0]
  by_cases h1 : id = descId 1
  · rw [if_pos h1, if_pos h1, hk]
    unfold rawEnvelope
    refine past_list hn ?_
    simp only [deeper_ind]
    exact is_enter hn (scoped_bind (scoped_autoNext (scoped_byType (hs _))) fun _ =>
      scoped_bind (scoped_autoNext (scoped_byType (hs _))) fun _ => scoped_pure _) (is_rawEnvelope h (k + 2))
  rw [if_neg h1, if_neg h1]
  by_cases h2 : id = descId 2
  · rw [if_pos h2, if_pos h2]
    unfold rawSchema
    refine past_list hn ?_
    simp only [deeper_ind]
    refine (is_forNext (g := page) (f := fun n i m => do
        let ts ← listParts m
        let types ← numberedOf (fun j t => do
          let ls ← elementLines rec (k + 4) t
          pure (⟨k + 3, dec i ++ ":".toList ++ outOf j ts.length ++ " ".toList⟩ :: ls)) m
        pure (⟨k + 2, outOf i n ++ " list: entries: ".toList ++ dec ts.length⟩ :: types.flatten)) (nth_ne_nil hn)
      (fun n i => (scoped_guard_bind scoped_list guard_list fun _ => scopedOn_autoListEnter fun _ =>
        scoped_bind (scoped_forNext fun _ => (scoped_bind (scoped_byType (hs _)) fun _ => scoped_pure _).on)
          fun _ => scoped_pure _).on)
      fun n i c m hm => types_here hs h (k + 2) i n c m hm).eq ?_
    unfold schemaShown
    have hl : listElements (nth ks 1) = kidsOf (nth ks 1) := by rw [hn]; rfl
    rw [hl]
    cases numberedOf (fun i m => do
        let ts ← listParts m
        let types ← numberedOf (fun j t => do
          let ls ← elementLines rec (k + 4) t
          pure (⟨k + 3, dec i ++ ":".toList ++ outOf j ts.length ++ " ".toList⟩ :: ls)) m
        pure (⟨k + 2, outOf i (kidsOf (nth ks 1)).length ++ " list: entries: ".toList ++ dec ts.length⟩ :: types.flatten))
          (nth ks 1) with
    | ok ls => show Res.ok _ = Res.ok _; rw [page_flatten]
    | throw m => rfl
    | ub m => rfl
  rw [if_neg h2, if_neg h2]
  by_cases h3 : id = descId 3
  · rw [if_pos h3, if_pos h3, hk]
    unfold rawObject
    refine past_list hn ?_
    intro c hc
    have hcur : c.cur = some (.mk .list xs) := hc.1.trans hn
    rw [autoListEnter_eq (fun _ => scoped_rawObjectBody _) (by rw [hcur]; rfl)]
    simp only [Bool.false_eq_true, if_false, deeper_ind]
    refine ⟨?_, fun _ _ => hc⟩
    rw [bind_of_ok (show Prog.next c.enter = (.ok c.enter.next.1, c.enter.next.2) from rfl)]
    exact (is_object (k + 2) _ (pos_enter hcur)).1
  rw [if_neg h3, if_neg h3]
  by_cases h4 : id = descId 4
  · rw [if_pos h4, if_pos h4, hk]
    unfold rawField
    refine past_list hn ?_
    simp only [deeper_ind]
    exact is_listEnter hn (fun _ =>
      scoped_guard_bind (scoped_autoNext (scoped_getString _)) (guard_autoNext (guard_getString _)) fun _ =>
      scopedOn_bind (scoped_autoNext (scoped_getString _)).on fun _ =>
      scopedOn_bind (scopedOn_rawRequires _) fun _ => scopedOn_bind scoped_next.on fun _ =>
      scopedOn_bind (scoped_attestString _).on fun _ =>
      scopedOn_bind (scoped_autoNext (scoped_getString _)).on fun _ =>
      scopedOn_bind (scoped_autoNext (scoped_getString _)).on fun _ =>
      scopedOn_bind (scoped_autoNext scoped_getBoolean).on fun _ =>
      scopedOn_bind (scoped_autoNext scoped_getBoolean).on fun _ => (scoped_pure _).on) (is_rawField (k + 2))
  rw [if_neg h4, if_neg h4]
  by_cases h5 : id = descId 5
  · rw [if_pos h5, if_pos h5, hk]
    unfold rawComposite
    refine past_list hn ?_
    simp only [deeper_ind]
    exact is_enter hn (
      scoped_bind (scoped_attestString _) fun _ =>
      scoped_guard_bind (scoped_readString _) (guard_readString _) fun _ =>
      scopedOn_bind (scoped_attestString _).on fun _ => scopedOn_bind (scoped_readString _).on fun _ =>
      scopedOn_bind scoped_list.on fun _ =>
      scopedOn_bind (scopedOn_autoListEnter fun _ => scoped_forNext fun _ =>
        (scoped_bind (scoped_getString _) fun _ => scoped_pure _).on) fun _ =>
      scopedOn_bind scoped_next.on fun _ => scopedOn_bind scoped_described.on fun _ =>
      scopedOn_bind (scoped_autoNext (scoped_byType (hs _))).on fun _ =>
      scopedOn_bind (scopedOn_autoListEnter fun _ => scoped_forNext fun _ =>
        (scoped_bind (scoped_byType (hs _)) fun _ => scoped_pure _).on) fun _ => (scoped_pure _).on)
      (is_rawComposite hs h (k + 2))
  rw [if_neg h5, if_neg h5]
  by_cases h6 : id = descId 6
  · rw [if_pos h6, if_pos h6, hk]
    unfold rawRestricted
    refine past_list hn ?_
    simp only [deeper_ind]
    exact is_enter hn (
      scoped_guard_bind (scoped_readString _) (guard_readString _) fun _ => scopedOn_bind (scoped_readString _).on fun _ =>
      scopedOn_bind (scopedOn_autoListEnter fun _ => scoped_forNext fun _ =>
        (scoped_bind (scoped_getString _) fun _ => scoped_pure _).on) fun _ =>
      scopedOn_bind scoped_next.on fun _ => scopedOn_bind (scoped_readString _).on fun _ =>
      scopedOn_bind (scoped_autoNext (scoped_byType (hs _))).on fun _ => (scoped_pure _).on)
      (is_rawRestricted h (k + 2))
  rw [if_neg h6, if_neg h6]
  by_cases h7 : id = descId 7
  · rw [if_pos h7, if_pos (.inr (.inl h7))]; exact hrec
  by_cases h8 : id = descId 8
  · rw [if_neg h7, if_pos h8, if_pos (.inr (.inr (.inl h8)))]; exact hrec
  by_cases h9 : id = descId 9
  · rw [if_neg h7, if_neg h8, if_pos h9, if_pos (.inr (.inr (.inr (.inl h9))))]; exact hrec
  by_cases h10 : id = descId 10
  · rw [if_neg h7, if_neg h8, if_neg h9, if_pos h10, if_pos (.inr (.inr (.inr (.inr (.inl h10)))))]; exact hrec
  by_cases h11 : id = descId 11
  · rw [if_neg h7, if_neg h8, if_neg h9, if_neg h10, if_pos h11, if_pos (.inr (.inr (.inr (.inr (.inr h11)))))]; exact hrec
  rw [if_neg h7, if_neg h8, if_neg h9, if_neg h10, if_neg h11, if_neg (by rintro (h | h | h | h | h | h) <;> contradiction)]
  exact is_ub _ _

private theorem name_eq (id : Nat) : describedToString id = elementName id := by
  have hd : ∀ k ≤ 22, descId k = cordaId k := fun k hk => descId_is hk
  unfold describedToString elementName
  rw [← hd 1 (by decide), ← hd 2 (by decide), ← hd 3 (by decide), ← hd 4 (by decide), ← hd 5 (by decide),
    ← hd 6 (by decide), ← hd 7 (by decide), ← hd 8 (by decide), ← hd 9 (by decide), ← hd 10 (by decide),
    ← hd 11 (by decide)]

private theorem strip_mod (id : Nat) : stripCorda id = id % 2 ^ 32 := by
  unfold stripCorda
  rw [show (0xffffffff : Nat) = 2 ^ 32 - 1 by decide, Nat.and_two_pow_sub_one_eq_mod]

private theorem is_rawNumbered {base : Str → Prog Str} {rec : Lines} (hs : ∀ ai, ScopedOn (base ai)) (h : Draws base rec)
    {ks : List Node} (k id : Nat) :
    Is (Pos ks 1) (do
      attestList
      let l ← look Cursor.getList
      let x ← rawFor base id (deeper (ind k))
      pure (ind k ++ dDescribed ++ nl ++ deeper (ind k) ++ dKey ++ natStr id ++ dColons ++ natStr (stripCorda id) ++ dArrow
        ++ describedToString id ++ nl ++ deeper (ind k) ++ dList ++ natStr l ++ nl ++ x) : Prog Str) _root_.id
      (page <$> (do
        let ps ← listParts (nth ks 1)
        let ls ← insideShown rec k id (nth ks 1)
        pure (elementHead k id ps.length ++ ls))) (Pos ks 1) := by
  refine is_then is_attestList fun _ hl => ?_
  have hn := list_some hl
  refine is_known (a := (kidsOf (nth ks 1)).length) (fun c hc => ?_) ?_
  · have hc1 := hc.1
    rw [hn] at hc1
    simp only [look, getList_at hc1]
    rw [hn]; rfl
  rw [deeper_ind]
  refine is_after (is_rawFor hs h hn k id) fun ls _ => is_done ?_
  generalize (kidsOf (nth ks 1)).length = l
  unfold elementHead
  rw [page_append, page_cons, page_cons, page_cons, page_nil, name_eq, strip_mod]
  simp only [List.append_assoc, List.append_nil, List.nil_append]
  rfl

private theorem draws_rawBase : (fuel : Nat) → Draws (rawBase fuel) (linesIn fuel)
  | 0 => fun _ _ _ _ => rfl
  | fuel + 1 => by
    intro k c n hc
    have ih := draws_rawBase fuel
    have hs := scopedOn_rawBase fuel
    rw [rawBase, linesIn, autoEnter_eq (scoped_rawBody hs _) (by rw [hc]; rfl)]
    simp only [Bool.false_eq_true, if_false, Prod.mk.injEq, and_true]
    have hp := pos_enter hc
    generalize c.enter.next.2 = d at hp
    have hv := val_at hp.1
    have ht := hp.type
    unfold rawBody
    rw [bind_of_ok (show look Cursor.type d = (.ok d.type, d) from rfl), ht]
    show _ = page <$> (match valueOf (nth n.kids 0) with
      | some (.ulong id) => _
      | some (.symbol s) => _
      | _ => _)
    cases ha : valueOf (nth n.kids 0) with
    | none => rfl
    | some a =>
      rw [ha] at hv
      cases a with
      | ulong id =>
        show ((readUint64 >>= _) d).1 = _
        have h1 : readUint64 d = (.ok id, d.next.2) := by
          simp [readUint64, autoNext, look, getUlong, hv]
        rw [bind_of_ok h1]
        have hp1 := hp.next
        generalize d.next.2 = e at hp1
        have key := is_rawNumbered hs ih k id (ks := n.kids)
        have := (key e hp1).1
        rw [id_map] at this
        exact this
      | symbol s =>
        show ((look getSymbolRaw >>= _) d).1 = _
        rw [bind_of_ok (show look getSymbolRaw d = (.ok s, d) from by simp [look, getSymbolRaw, hv])]
        simp only [Prog.pure_def, Res.map_eq, Res.bind, deeper_ind, page_cons, page_nil, List.append_assoc, List.append_nil]
        rfl
      | _ => rfl

/-- **C90, elements.** Dumping a schema element as raw text, at any depth of indentation, with the cursor anywhere on a
node, has the outcome described in the specification, and leaves the cursor there. -/
theorem C90_element (depth k : Nat) (c : Cursor) (n : Node) (hc : c.cur = some n) :
    rawBase depth (List.replicate (2 * k) ' ') c = (page <$> linesIn depth k (some n), c) := draws_rawBase depth k c n hc

/-- **C90.** Dumping the schema of any tree as raw text has the outcome described in the specification: the same text, the
same exception or the same undefined behaviour. -/
theorem C90_any (c : Cursor) (n : Node) (hc : c.cur = some n) : (dumpSchema .raw c).1 = rawDump n := by
  unfold dumpSchema rawDump
  have ht : c.type = n.val.type := by simp [Cursor.type, hc]
  have hf : c.fuel = n.height := by rw [Cursor.fuel, hc]
  rw [bind_of_ok (show look Cursor.type c = (.ok c.type, c) from rfl), ht, hf]
  have h := draws_rawBase n.height 0 c n hc
  cases hv : n.val with
  | described =>
    simp only [Atom.type, ne_eq, not_true]
    show (rawBase n.height (ind 0) c).1 = _
    rw [h]
    cases linesIn n.height 0 (some n) <;> rfl
  | _ => rfl

/-- **C90, no value under the cursor**: then there is an exception. -/
theorem C90_none (c : Cursor) (hc : c.cur = none) : (dumpSchema .raw c).1 = .throw "Can only dispatch described objects" := by
  unfold dumpSchema
  rw [bind_of_ok (show look Cursor.type c = (.ok c.type, c) from rfl)]
  simp [Cursor.type, hc, Prog.throw]

/-- Two ways to find lines agree on all nodes up to a height. -/
private def Agree (rec rec' : Lines) (h : Nat) : Prop := ∀ k m, m.height ≤ h → rec k (some m) = rec' k (some m)

private theorem agree_element {rec rec' : Lines} {h : Nat} (ha : Agree rec rec' h) (k : Nat) {n : Option Node}
    (hn : ∀ m, n = some m → m.height ≤ h) : elementLines rec k n = elementLines rec' k n := by
  cases n with
  | none => rfl
  | some m =>
    unfold elementLines
    rw [ha k m (hn m rfl)]

private theorem agree_inside {rec rec' : Lines} {h : Nat} (ha : Agree rec rec' h) (k id : Nat) {n : Option Node}
    (hn : ∀ m, n = some m → m.height ≤ h) (hr : rec (k + 1) n = rec' (k + 1) n) :
    insideShown rec k id n = insideShown rec' k id n := by
  have hk : ∀ i m, nth (kidsOf n) i = some m → m.height ≤ h := fun i m hm => Nat.le_of_lt (kids_height hn (nth_mem hm))
  have hkk : ∀ i m, m ∈ kidsOf (nth (kidsOf n) i) → m.height ≤ h := fun i m hm => Nat.le_of_lt (kids_height (hk i) hm)
  have e : envelopeShown rec (k + 2) (kidsOf n) = envelopeShown rec' (k + 2) (kidsOf n) := by
    unfold envelopeShown
    rw [agree_element ha _ (hk 0), agree_element ha _ (hk 1)]
  have s : schemaShown rec (k + 2) n = schemaShown rec' (k + 2) n := by
    unfold schemaShown
    congr 1
    refine numberedOf_congr fun i m hm => ?_
    have hm' : ∀ x, some m = some x → x.height ≤ h := fun x hx => by
      obtain rfl := Option.some.inj hx; exact Nat.le_of_lt (kids_height hn hm)
    congr 1
    funext ts
    congr 1
    refine numberedOf_congr fun j t ht => ?_
    rw [agree_element ha _ (n := some t) fun x hx => by
      obtain rfl := Option.some.inj hx; exact Nat.le_of_lt (kids_height hm' ht)]
  have c : compositeShown rec (k + 2) (kidsOf n) = compositeShown rec' (k + 2) (kidsOf n) := by
    unfold compositeShown
    have h1 : numberedOf (fun i m => do
        let ls ← elementLines rec (k + 2 + 2) m
        pure ((⟨k + 2 + 1, outOf i (listElements (nth (kidsOf n) 4)).length⟩ : Line) :: ls)) (nth (kidsOf n) 4)
      = numberedOf (fun i m => do
        let ls ← elementLines rec' (k + 2 + 2) m
        pure (⟨k + 2 + 1, outOf i (listElements (nth (kidsOf n) 4)).length⟩ :: ls)) (nth (kidsOf n) 4) :=
      numberedOf_congr fun i m hm => by
        rw [agree_element ha _ (n := some m) fun x hx => by obtain rfl := Option.some.inj hx; exact hkk 4 _ hm]
    rw [h1]
    cases hx : nth (kidsOf n) 3 with
    | none => rfl
    | some m => rw [ha _ m (hk 3 m hx)]
  have r : restrictedShown rec (k + 2) (kidsOf n) = restrictedShown rec' (k + 2) (kidsOf n) := by
    unfold restrictedShown
    rw [agree_element ha _ (hk 4)]
  unfold insideShown
  rw [e, s, c, r, hr]

/-- **C90, the bound on the nesting is no restriction**: anything from the height of the tree gives the same. -/
theorem C90_depth (k d : Nat) (n : Node) (h : n.height ≤ d) : linesIn d k (some n) = linesIn n.height k (some n) := by
  have key : ∀ d d' k (n : Node), n.height ≤ d → n.height ≤ d' → linesIn d k (some n) = linesIn d' k (some n) := by
    intro d
    induction d with
    | zero => intro d' k n hn; exact absurd hn (by cases n; simp [Node.height])
    | succ d ih =>
      intro d' k n hn hn'
      cases d' with
      | zero => exact absurd hn' (by cases n; simp [Node.height])
      | succ d' =>
        have hh : ∀ m, nth (kidsOf (some n)) 1 = some m → m.height ≤ min d d' := fun m hm => by
          have := nth_height (n := n) hm
          omega
        rw [linesIn, linesIn]
        cases hx : nth (kidsOf (some n)) 1 with
        | none =>
          have : listParts none = .throw "Expected a List" := rfl
          rw [this]; rfl
        | some x =>
          rw [hx] at hh
          have := fun id => agree_inside (rec := linesIn d) (rec' := linesIn d') (h := min d d')
            (fun k m hm => ih d' k m (by omega) (by omega)) k id hh
            (ih d' _ x (by have := hh x rfl; omega) (by have := hh x rfl; omega))
          simp only [this]
  exact key d n.height k n h (Nat.le_refl _)

/-! The outcomes on trees that are not schemas Corda would write. -/

/-- A list of types with one type, in a schema. -/
private def withType (t : Node) : Node := element 2 [.mk .list [t]]

/-- **C90, not only schemas**: what comes of a schema whose part is not a list; of a type that is not described, one that is a
choice (its list is then taken for a described value), one with an unknown number; of a fingerprint with nothing behind it
(it is shown twice); of a class whose only field is in an array (the count is then zero) and is not a field. -/
theorem C90_odd :
    rawDump (element 2 [.mk .null []]) = .throw "Expected a List"
      ∧ rawDump (withType (.mk .null [])) = .ub "null registry entry"
      ∧ rawDump (withType (element 7 [str "A".toList])) = .throw "Described type should only contain long or blob"
      ∧ rawDump (withType (element 12 [])) = .ub "null registry entry"
      ∧ rawDump (element 3 [sym "ab".toList])
        = .ok (page (elementHead 0 (cordaId 3) 1 ++ [⟨2, "1/2] ab".toList⟩, ⟨2, "2/2] 21 PN_SYMBOL 2\n   -> a b ".toList⟩]))
      ∧ rawDump (element 5 [str "A".toList, .mk .null [], .mk .list [], element 3 [sym "ab".toList, .mk .null []],
          .mk .array [element 3 [sym "cd".toList, .mk .null []]]])
        = .ok (page (elementHead 0 (cordaId 5) 5 ++ [⟨2, "1] String: ClassName: A".toList⟩, ⟨2, "2] String: Label: \"\"".toList⟩,
            ⟨2, "3] List: Provides: [ ]".toList⟩, ⟨2, "4] Descriptor:".toList⟩]
          ++ objectLines 3 "ab".toList ++ [⟨2, "5] List: Fields: ".toList⟩, ⟨3, "1/0]".toList⟩]
          ++ objectLines 4 "cd".toList)) := by decide +kernel

#print axioms C90_element
#print axioms C90_any
#print axioms C90_none
#print axioms C90_depth
#print axioms C90_odd

end Corda.Props
