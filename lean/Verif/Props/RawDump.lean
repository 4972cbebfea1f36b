import Verif.Props.Words
import Verif.Lemmas.RawDump
import Verif.Spec.RawDump

/-
C48, C49 and C58: the dump of the payload without the schema.
-/

namespace Corda.Props
open Corda Prog Spec

/-! ### Loops -/

/-- On that node the program returns that value and stays. -/
def Gives (p : Prog Val) (n : Node) (v : Val) : Prop := ∀ c : Cursor, c.cur = some n → p c = (.ok v, c)

private theorem whileNext_gives {p : Prog Val} {ns : List Node} {vs : List Val} (h : Each (Gives p) ns vs) :
    ∀ c : Cursor, c.rest = ns → (whileNext p c).1 = .ok vs := by
  have : ∀ fuel (c : Cursor), c.rest = ns → ns.length < fuel → (whileNextGo p fuel c).1 = .ok vs := by
    induction h with
    | nil =>
      intro fuel c hc hf
      cases fuel with
      | zero => omega
      | succ fuel =>
        obtain ⟨pr, cu, re, up⟩ := c
        simp only at hc
        subst hc
        rfl
    | cons h1 h2 ih =>
      rename_i n v ns vs
      intro fuel c hc hf
      cases fuel with
      | zero => omega
      | succ fuel =>
        obtain ⟨pr, cu, re, up⟩ := c
        simp only at hc
        subst hc
        unfold whileNextGo
        rw [bind_of_ok (next_cons pr cu n ns up)]
        simp only [if_true]
        rw [bind_of_ok (h1 ⟨cu.toList ++ pr, some n, ns, up⟩ rfl)]
        have := ih fuel ⟨cu.toList ++ pr, some n, ns, up⟩ rfl (by simp only [List.length_cons] at hf; omega)
        rw [bind_def]
        rcases hw : whileNextGo p fuel ⟨cu.toList ++ pr, some n, ns, up⟩ with ⟨r, c'⟩
        rw [hw] at this
        simp only at this
        subst this
        rfl
  intro c hc
  exact this _ c hc (by rw [hc]; exact Nat.lt_succ_self _)

private theorem Each.length {α β : Type} {Q : α → β → Prop} {as : List α} {bs : List β} (h : Each Q as bs) :
    as.length = bs.length := by
  induction h with
  | nil => rfl
  | cons _ _ ih => simp [ih]

private theorem Each.get {α β : Type} {Q : α → β → Prop} {as : List α} {bs : List β} (h : Each Q as bs) :
    ∀ (i : Nat) a, as[i]? = some a → ∃ b, bs[i]? = some b ∧ Q a b := by
  induction h with
  | nil => simp
  | cons hq _ ih =>
    intro i a ha
    cases i with
    | zero => simp at ha; subst ha; exact ⟨_, rfl, hq⟩
    | succ i => simpa using ih i a (by simpa using ha)

/-- The value at place `i`, or the last one. -/
private def valAt (vs : List Val) (i : Nat) : Val := (vs[min i (vs.length - 1)]?).getD .nullSingle

private theorem nth_valAt {Q : Node → Val → Prop} {ns : List Node} {vs : List Val} (h : Each Q ns vs) {i : Nat} {n : Node}
    (hn : nth ns i = some n) : Q n (valAt vs i) := by
  unfold nth at hn
  rw [Each.length h] at hn
  obtain ⟨b, hb, hq⟩ := Each.get h _ _ hn
  unfold valAt
  rw [hb]
  exact hq

/-- One step in a map: the type of one node, the dump of the next. -/
private theorem rawStep_at {rec : PnType → Prog Val} {K : PnType → Prop} {ns : List Node} {vs : List Val} (hne : ns ≠ [])
    (hk : ∀ n ∈ ns, K n.val.type) (h : Each (fun n v => ∀ t, K t → Gives (rec t) n v) ns vs) {i : Nat} {c : Cursor}
    (hc : Pos ns i c) : rawStep rec c = (.ok (valAt vs (i + 1)), c.next.2) := by
  obtain ⟨n, hn⟩ := nth_isSome i hne
  obtain ⟨m, hm⟩ := nth_isSome (i + 1) hne
  have ht : autoNext (look Cursor.type) c = (.ok n.val.type, c.next.2) := by
    simp only [autoNext, look, type_of_cur (hc.1.trans hn)]
  unfold rawStep
  rw [bind_of_ok ht]
  exact nth_valAt h hm _ (hk n (nth_mem hn)) _ (hc.next.1.trans hm)

/-- The entries as the loop makes them, from place `j`. -/
private def slippedVals (vs : List Val) (j : Nat) : Nat → List Val
  | 0 => []
  | k + 1 => .valuePair (valAt vs (j + 1)) (valAt vs (j + 2)) :: slippedVals vs (j + 3) k

private theorem times_rawPair {rec : PnType → Prog Val} {K : PnType → Prop} {ns : List Node} {vs : List Val} (hne : ns ≠ [])
    (hk : ∀ n ∈ ns, K n.val.type) (h : Each (fun n v => ∀ t, K t → Gives (rec t) n v) ns vs) (k : Nat) :
    ∀ (j : Nat) (c : Cursor), Pos ns j c → (times (rawPair rec) k c).1 = .ok (slippedVals vs j k) := by
  induction k with
  | zero => intro j c _; rfl
  | succ k ih =>
    intro j c hc
    have h1 := rawStep_at hne hk h hc
    have h2 := rawStep_at hne hk h hc.next
    have hp : rawPair rec c = (.ok (.valuePair (valAt vs (j + 1)) (valAt vs (j + 2))), c.next.2.next.2.next.2) := by
      unfold rawPair
      rw [bind_of_ok h1, bind_of_ok h2]
      rfl
    have := ih (j + 3) _ hc.next.next.next
    rw [times, bind_of_ok hp, bind_def]
    rcases hw : times (rawPair rec) k c.next.2.next.2.next.2 with ⟨r, c'⟩
    rw [hw] at this
    simp only at this
    subst this
    rfl

private theorem valAt_dump (vs : List Val) (hne : vs ≠ []) (i : Nat) : (valAt vs i).dump = upTo (vs.map Val.dump) i := by
  have hl : 0 < vs.length := List.length_pos_iff.mpr hne
  unfold valAt upTo
  have hi : min i (vs.length - 1) < vs.length := by omega
  rw [List.length_map, List.getElem?_map, List.getElem?_eq_getElem hi]
  rfl

private theorem slippedVals_dump (vs : List Val) (hne : vs ≠ []) (k j : Nat) : (slippedVals vs j k).map Val.dump
    = (List.range k).map fun i => colon (upTo (vs.map Val.dump) (j + 3 * i + 1)) (upTo (vs.map Val.dump) (j + 3 * i + 2)) := by
  induction k generalizing j with
  | zero => rfl
  | succ k ih =>
    rw [slippedVals, List.map_cons, ih, List.range_succ_eq_map, List.map_cons, List.map_map]
    congr 1
    · rw [Val.dump, valAt_dump vs hne, valAt_dump vs hne]
      rfl
    · apply List.map_congr_left
      intro i _
      simp only [Function.comp]
      congr 2 <;> omega

private theorem pos_of_entered {ns : List Node} (u : List (List Node × Atom × List Node)) :
    Pos ns 0 (⟨[], none, ns, u⟩ : Cursor).next.2 := by
  cases ns with
  | nil => exact ⟨rfl, rfl⟩
  | cons n ns => exact ⟨rfl, rfl⟩

/-! ### Lists and maps -/

private def listVals (vs : List Val) : List Val := if vs.isEmpty then [.single emptyListText] else vs

private theorem listVals_dump (vs : List Val) : (listVals vs).map Val.dump = elements (vs.map Val.dump) := by
  cases vs with
  | nil => unfold listVals; simp only [List.isEmpty_nil, if_true, List.map_cons, List.map_nil, Val.dump]; rfl
  | cons v vs => simp [listVals, elements]

private def mapVals (vs : List Val) : List Val :=
  if vs.isEmpty then [.single emptyMapText] else slippedVals vs 0 ((vs.length + 1) / 2)

private theorem mapVals_dump (vs : List Val) : (mapVals vs).map Val.dump = slipped (vs.map Val.dump) := by
  cases vs with
  | nil => unfold mapVals; simp only [List.isEmpty_nil, if_true, List.map_cons, List.map_nil, Val.dump]; rfl
  | cons v vs =>
    simp only [mapVals, List.isEmpty_cons, Bool.false_eq_true, if_false]
    rw [slippedVals_dump _ (by simp), slipped, if_neg (by simp), List.length_map]
    simp only [Nat.zero_add]

private theorem rawList_gives {rec : PnType → Prog Val} (hs : ∀ t, ScopedOn (rec t)) {ns : List Node} {vs : List Val}
    (h : Each (fun n v => Gives (rec n.val.type) n v) ns vs) {c : Cursor} (hc : c.cur = some (.mk .list ns)) :
    rawList rec c = (.ok (listVals vs), c) := by
  have hsome : c.cur.isSome = true := by rw [hc]; rfl
  unfold rawList
  rw [show attestList = attest .list "Expected a List" from rfl, bind_of_ok (attest_ok (show c.type = .list from type_of_cur hc)),
    autoListEnter_eq (fun _ => scoped_listBody hs) hsome]
  have he : c.enter = ⟨[], none, ns, (c.prev, .list, c.rest) :: c.up⟩ := by simp [Cursor.enter, hc]
  rw [if_pos rfl, he]
  cases h with
  | nil => rfl
  | cons h1 h2 =>
    rename_i n v ns vs
    have hcur : (⟨[], none, n :: ns, (c.prev, .list, c.rest) :: c.up⟩ : Cursor).next.2
      = ⟨[], some n, ns, (c.prev, .list, c.rest) :: c.up⟩ := rfl
    rw [hcur, bind_of_ok (show look Cursor.type _ = (.ok n.val.type, _) from rfl),
      if_neg (by cases n with | mk v _ => cases v <;> simp [Node.val, Atom.type])]
    have elem : ∀ n v, Gives (rec n.val.type) n v → Gives (do let t ← look Cursor.type; rec t : Prog Val) n v := by
      intro n v hg c hc
      rw [bind_of_ok (show look Cursor.type c = (.ok n.val.type, c) by simp only [look, type_of_cur hc])]
      exact hg c hc
    have hmap : ∀ {ns vs}, Each (fun n v => Gives (rec n.val.type) n v) ns vs →
        Each (Gives (do let t ← look Cursor.type; rec t : Prog Val)) ns vs := by
      intro ns vs h
      induction h with
      | nil => exact .nil
      | cons a _ ih => exact .cons (elem _ _ a) ih
    have hw := whileNext_gives (hmap h2) ⟨[], some n, ns, (c.prev, .list, c.rest) :: c.up⟩ rfl
    rw [bind_of_ok (elem n v h1 ⟨[], some n, ns, (c.prev, .list, c.rest) :: c.up⟩ rfl), bind_def]
    rcases hq : whileNext (do let t ← look Cursor.type; rec t : Prog Val) ⟨[], some n, ns, (c.prev, .list, c.rest) :: c.up⟩
      with ⟨r, c'⟩
    rw [hq] at hw
    simp only at hw
    subst hw
    rfl

private theorem rawMap_gives {rec : PnType → Prog Val} (hs : ∀ t, ScopedOn (rec t)) {K : PnType → Prop} {ns : List Node}
    {vs : List Val} (hk : ∀ n ∈ ns, K n.val.type) (h : Each (fun n v => ∀ t, K t → Gives (rec t) n v) ns vs) {c : Cursor}
    (hc : c.cur = some (.mk .map ns)) :
    rawMap rec c = (.ok (mapVals vs), c) := by
  have hsome : c.cur.isSome = true := by rw [hc]; rfl
  unfold rawMap
  rw [show isMapP = attest .map "Expected a Map" from rfl, bind_of_ok (attest_ok (show c.type = .map from type_of_cur hc)),
    autoMapEnter_eq (scoped_mapBody hs) hsome]
  have he : c.enter = ⟨[], none, ns, (c.prev, .map, c.rest) :: c.up⟩ := by simp [Cursor.enter, hc]
  have hn : c.getMap = ns.length := by simp [Cursor.getMap, hc]
  rw [if_pos rfl, he, hn]
  by_cases hne : ns = []
  · subst hne
    cases h
    rfl
  · have hp := pos_of_entered (ns := ns) ((c.prev, .map, c.rest) :: c.up)
    obtain ⟨n, hn0⟩ := nth_isSome 0 hne
    have ht := type_of_cur (hp.1.trans hn0)
    have hvne : vs.isEmpty = false := by
      cases vs with
      | nil => exact absurd (List.length_eq_zero_iff.mp (Each.length h)) hne
      | cons _ _ => rfl
    rw [bind_of_ok (show look Cursor.type (⟨[], none, ns, (c.prev, .map, c.rest) :: c.up⟩ : Cursor).next.2
        = (.ok n.val.type, (⟨[], none, ns, (c.prev, .map, c.rest) :: c.up⟩ : Cursor).next.2) by simp only [look, ht]),
      if_neg (by cases n with | mk v _ => cases v <;> simp [Node.val, Atom.type]), times_rawPair hne hk h _ 0 _ hp]
    simp only [mapVals, hvne, Bool.false_eq_true, if_false, Each.length h]

/-- The types that are treated as that kind. -/
private def OfKind (k : Nat) (t : PnType) : Prop :=
  (if t = .list then 1 else if t = .map then 2 else if t = .described then 3 else 0) = k

private theorem ofKind_tree (t : Raw) (h : Even t) : OfKind t.kind (rawTree t).val.type := by
  cases t with
  | leaf n =>
    rw [Even] at h
    rw [rawTree]
    unfold OfKind Raw.kind
    rw [if_neg h.1, if_neg h.2.1, if_neg h.2.2]
  | list es => rw [rawTree]; rfl
  | map es => rw [rawTree]; rfl
  | describedList d es => rw [rawTree]; rfl
  | describedMap d es => rw [rawTree]; rfl

/-- What is made of a leaf. -/
def leafVal (a : Atom) : Val := .single (leafText a)

theorem rawPrimitive_leaf {n : Node} : Gives rawPrimitive n (leafVal n.val) := by
  obtain ⟨a, ks⟩ := n
  intro c hc
  have ht := type_of_cur hc
  have hv : c.val = some a := by simp [Cursor.val, hc, Node.val]
  have hts : typeToString c = (.ok (typeWord a.type), c) := by
    rw [C83_name, ht]
    rfl
  unfold rawPrimitive
  rw [bind_of_ok (show look Cursor.type c = (.ok a.type, c) by simp only [look, ht, Node.val])]
  cases a <;> simp only [Atom.type, Node.val] at hts ⊢
  case int n => simp [bind_def, look, getInt, hv, Prog.pure_def, leafVal, leafText, intStr_eq]
  case long n => simp [bind_def, look, getLong, hv, Prog.pure_def, leafVal, leafText, intStr_eq]
  case uint n => simp [bind_def, look, getUint, hv, Prog.pure_def, leafVal, leafText, natStr_eq]
  case ulong n => simp [bind_def, look, getUlong, hv, Prog.pure_def, leafVal, leafText, natStr_eq]
  case float n => simp [bind_def, look, getFloat, hv, Prog.pure_def, leafVal, leafText]
  case double n => simp [bind_def, look, getDouble, hv, Prog.pure_def, leafVal, leafText]
  case string n => simp [bind_def, getString, hv, Prog.pure_def, leafVal, leafText]
  case bool b =>
    rw [bind_of_ok (show look getBool c = (.ok b, c) by simp only [look, getBool, hv]), Prog.pure_def]
    rfl
  case symbol b => rfl
  all_goals
    rw [bind_of_ok hts, Prog.pure_def]
    rfl

private theorem rawAs_prim {fuel : Nat} {t : PnType} (h : OfKind 0 t) : rawAs (fuel + 1) t = rawPrimitive := by
  cases t <;> first | rfl | (simp [OfKind] at h)

private theorem rawAs_kind {t : PnType} :
    (OfKind 1 t → t = .list) ∧ (OfKind 2 t → t = .map) ∧ (OfKind 3 t → t = .described) := by
  cases t <;> simp [OfKind]

/-- The tree is dumped, as anything of its kind, with that text. -/
private def Dumps (e : Raw) : Prop := ∀ fuel, (rawTree e).height ≤ fuel →
  ∃ v : Val, (∀ t, OfKind e.kind t → Gives (rawAs fuel t) (rawTree e) v) ∧ v.dump = rawText slipped e

private theorem collect {es : List Raw} (h : ∀ e ∈ es, Dumps e) {fuel : Nat} (hf : ∀ n ∈ rawTrees es, n.height ≤ fuel) :
    ∃ vs, Each (fun e v => ∀ t, OfKind e.kind t → Gives (rawAs fuel t) (rawTree e) v) es vs
      ∧ vs.map Val.dump = rawTexts slipped es := by
  induction es with
  | nil => exact ⟨[], .nil, by rw [rawTexts]; rfl⟩
  | cons e es ih =>
    rw [rawTrees] at hf
    obtain ⟨vs, h1, h2⟩ := ih (fun e he => h e (List.mem_cons_of_mem _ he)) fun n hn => hf n (List.mem_cons_of_mem _ hn)
    obtain ⟨v, h3, h4⟩ := h e List.mem_cons_self fuel (hf _ List.mem_cons_self)
    exact ⟨v :: vs, .cons h3 h1, by rw [rawTexts, List.map_cons, h2, h4]⟩

private theorem rawTrees_eq (es : List Raw) : rawTrees es = es.map rawTree := by
  induction es with
  | nil => rw [rawTrees]; rfl
  | cons e es ih => rw [rawTrees, ih]; rfl

private theorem evens_iff (es : List Raw) : Evens es ↔ ∀ e ∈ es, Even e := by
  induction es with
  | nil => simp [Evens]
  | cons e es ih => rw [Evens, ih]; simp

private theorem list_dumps {es : List Raw} (hev : Evens es) (h : ∀ e ∈ es, Dumps e) {fuel : Nat}
    (hf : ∀ n ∈ rawTrees es, n.height ≤ fuel) : ∃ ws : List Val, (∀ c : Cursor, c.cur = some (.mk .list (rawTrees es)) →
      rawList (rawAs fuel) c = (.ok ws, c)) ∧ ws.map Val.dump = elements (rawTexts slipped es) := by
  obtain ⟨vs, h1, h2⟩ := collect h hf
  have hE : Each (fun n v => Gives (rawAs fuel n.val.type) n v) (rawTrees es) vs := by
    rw [evens_iff] at hev
    clear h2 hf h
    induction h1 with
    | nil => rw [rawTrees]; exact .nil
    | cons hq _ ih =>
      rename_i e v es vs _
      rw [rawTrees]
      exact .cons (hq _ (ofKind_tree e (hev e List.mem_cons_self))) (ih fun e he => hev e (List.mem_cons_of_mem _ he))
  exact ⟨listVals vs, fun c hc => rawList_gives (scopedOn_rawAs fuel) hE hc, by rw [listVals_dump, h2]⟩

private theorem map_dumps {es : List Raw} (hev : Evens es) (hk : ∃ k, ∀ e ∈ es, e.kind = k) (h : ∀ e ∈ es, Dumps e)
    {fuel : Nat} (hf : ∀ n ∈ rawTrees es, n.height ≤ fuel) : ∃ ws : List Val, (∀ c : Cursor,
      c.cur = some (.mk .map (rawTrees es)) → rawMap (rawAs fuel) c = (.ok ws, c))
      ∧ ws.map Val.dump = slipped (rawTexts slipped es) := by
  obtain ⟨vs, h1, h2⟩ := collect h hf
  obtain ⟨k, hk⟩ := hk
  rw [evens_iff] at hev
  have hE : Each (fun n v => ∀ t, OfKind k t → Gives (rawAs fuel t) n v) (rawTrees es) vs := by
    clear h2 hf h hev
    induction h1 with
    | nil => rw [rawTrees]; exact .nil
    | cons hq _ ih =>
      rename_i e v es vs _
      rw [rawTrees]
      refine .cons (fun t ht => hq t ?_) (ih fun e he => hk e (List.mem_cons_of_mem _ he))
      rw [hk e List.mem_cons_self]; exact ht
  have hK : ∀ n ∈ rawTrees es, OfKind k n.val.type := by
    intro n hn
    rw [rawTrees_eq, List.mem_map] at hn
    obtain ⟨e, he, rfl⟩ := hn
    rw [← hk e he]
    exact ofKind_tree e (hev e he)
  exact ⟨mapVals vs, fun c hc => rawMap_gives (scopedOn_rawAs fuel) hK hE hc, by rw [mapVals_dump, h2]⟩

private theorem described_dumps {d : Str} {a : Atom} {ns : List Node} {ws : List Val} {fuel : Nat}
    (h : (a = .list ∧ ∀ c : Cursor, c.cur = some (.mk a ns) → rawList (rawAs fuel) c = (.ok ws, c))
      ∨ (a = .map ∧ ∀ c : Cursor, c.cur = some (.mk a ns) → rawMap (rawAs fuel) c = (.ok ws, c))) :
    Gives (rawDescribed (rawAs fuel)) (described d (.mk a ns)) (.pairList d ws) := by
  intro c hc
  unfold rawDescribed
  refine enter_described hc ?_ (c' := inside2 c d (.mk a ns)) ⟨rfl, rfl, fun _ => rfl⟩
  rw [bind_of_ok (inside_readString c d _)]
  rcases h with ⟨rfl, h⟩ | ⟨rfl, h⟩
  · rw [bind_of_ok (show look Cursor.type (inside2 c d (.mk .list ns)) = (.ok .list, _) from rfl), if_pos rfl,
      bind_of_ok (h (inside2 c d (.mk .list ns)) rfl)]
    rfl
  · rw [bind_of_ok (show look Cursor.type (inside2 c d (.mk .map ns)) = (.ok .map, _) from rfl), if_neg (by simp),
      if_pos rfl, bind_of_ok (h (inside2 c d (.mk .map ns)) rfl)]
    rfl

mutual

private theorem raw_dumps : (e : Raw) → Even e → Dumps e
  | .leaf n, hev => by
    intro fuel hf
    cases fuel with
    | zero => have := height_pos (rawTree (.leaf n)); omega
    | succ fuel =>
      rw [rawTree]
      refine ⟨leafVal n.val, fun t ht => ?_, by rw [rawText, leafVal, Val.dump]⟩
      rw [rawAs_prim ht]
      exact rawPrimitive_leaf
  | .list es, hev => by
    intro fuel hf
    rw [rawTree] at hf ⊢
    rw [Even] at hev
    cases fuel with
    | zero => have := height_pos (.mk .list (rawTrees es)); omega
    | succ fuel =>
      obtain ⟨ws, h1, h2⟩ := list_dumps hev (raw_dumps_all es hev) (fuel := fuel) fun n hn => by
        have := height_kids (v := .list) hn; omega
      refine ⟨.singleList ws, fun t ht => ?_, ?_⟩
      · rw [rawAs_kind.1 ht]
        intro c hc
        show (rawList (rawAs fuel) >>= fun vs => pure (Val.singleList vs) : Prog Val) c = _
        rw [bind_of_ok (h1 c hc)]
        rfl
      · rw [pairList_dump none ws, h2, rawText]; rfl
  | .map es, hev => by
    intro fuel hf
    rw [rawTree] at hf ⊢
    rw [Even] at hev
    cases fuel with
    | zero => have := height_pos (.mk .map (rawTrees es)); omega
    | succ fuel =>
      obtain ⟨ws, h1, h2⟩ := map_dumps hev.1 hev.2 (raw_dumps_all es hev.1) (fuel := fuel) fun n hn => by
        have := height_kids (v := .map) hn; omega
      refine ⟨.singleList ws, fun t ht => ?_, ?_⟩
      · rw [rawAs_kind.2.1 ht]
        intro c hc
        show (rawMap (rawAs fuel) >>= fun vs => pure (Val.singleList vs) : Prog Val) c = _
        rw [bind_of_ok (h1 c hc)]
        rfl
      · rw [pairList_dump none ws, h2, rawText]; rfl
  | .describedList d es, hev => by
    intro fuel hf
    rw [rawTree] at hf ⊢
    rw [Even] at hev
    cases fuel with
    | zero => have := height_pos (described d (.mk .list (rawTrees es))); omega
    | succ fuel =>
      obtain ⟨ws, h1, h2⟩ := list_dumps hev (raw_dumps_all es hev) (fuel := fuel) fun n hn => by
        have := height_described (d := d) (a := .list) hn; omega
      refine ⟨.pairList d ws, fun t ht => ?_, ?_⟩
      · rw [rawAs_kind.2.2 ht]
        exact described_dumps (.inl ⟨rfl, h1⟩)
      · rw [pairList_dump (some d) ws, h2, rawText]; rfl
  | .describedMap d es, hev => by
    intro fuel hf
    rw [rawTree] at hf ⊢
    rw [Even] at hev
    cases fuel with
    | zero => have := height_pos (described d (.mk .map (rawTrees es))); omega
    | succ fuel =>
      obtain ⟨ws, h1, h2⟩ := map_dumps hev.1 hev.2 (raw_dumps_all es hev.1) (fuel := fuel) fun n hn => by
        have := height_described (d := d) (a := .map) hn; omega
      refine ⟨.pairList d ws, fun t ht => ?_, ?_⟩
      · rw [rawAs_kind.2.2 ht]
        exact described_dumps (.inr ⟨rfl, h1⟩)
      · rw [pairList_dump (some d) ws, h2, rawText]; rfl

private theorem raw_dumps_all : (es : List Raw) → Evens es → ∀ e ∈ es, Dumps e
  | [], _ => by simp
  | e :: es, h => by
    rw [Evens] at h
    intro e' he
    rcases List.mem_cons.mp he with heq | he
    · rw [heq]; exact raw_dumps e h.1
    · exact raw_dumps_all es h.2 e' he

end


/-! ### The whole dump -/

/-- Inside an envelope. -/
private theorem dumpData_eq {c : Cursor} {p st tr : Node} {v : Val} (hc : c.cur = some (envelopeTree p st tr))
    (hp : p.val = .described) (h : Gives (rawDescribed (rawAs c.fuel)) p v) : dumpData c = (.ok v.dump, c) := by
  unfold dumpData
  have ht : c.type = .described := type_of_cur hc
  generalize c.fuel = f at *
  obtain ⟨pr, cu, re, up⟩ := c
  simp only at hc
  subst hc
  rw [bind_of_ok (show isDescribed _ = (.ok true, _) from rfl), if_pos rfl,
    show attestDescribed = attest .described "Expected a Described type" from rfl, bind_of_ok (attest_ok (by rfl))]
  have h1 : autoEnter (do
        let key ← readUint64
        if stripCorda key = ENVELOPE then pure () else ub "assert" : Prog Unit) false ⟨pr, some (envelopeTree p st tr), re, up⟩
      = (.ok (), ⟨pr, some (envelopeTree p st tr), re, up⟩) := by
    unfold autoEnter
    refine scope_back (c1 := ⟨[], some (.mk (.ulong (cordaId 1)) []), [.mk .list [p, st, tr]], (pr, .described, re) :: up⟩)
      (c' := ⟨[.mk (.ulong (cordaId 1)) []], some (.mk .list [p, st, tr]), [], (pr, .described, re) :: up⟩) rfl rfl ?_
      ⟨rfl, rfl, fun _ => rfl⟩
    rw [bind_of_ok (show readUint64 _ = (.ok (cordaId 1), _) from rfl), if_pos (by decide +kernel)]
    rfl
  rw [bind_of_ok h1]
  have h2 : autoEnter (do
        attest .list "Expected a List"
        autoListEnter (fun _ => do
          attest .described "Expected a Described type"
          rawDescribed (rawAs f)) true : Prog Val) true ⟨pr, some (envelopeTree p st tr), re, up⟩
      = (.ok v, ⟨pr, some (envelopeTree p st tr), re, up⟩) := by
    unfold autoEnter
    refine scope_back (c1 := ⟨[.mk (.ulong (cordaId 1)) []], some (.mk .list [p, st, tr]), [], (pr, .described, re) :: up⟩)
      (c' := ⟨[.mk (.ulong (cordaId 1)) []], some (.mk .list [p, st, tr]), [], (pr, .described, re) :: up⟩) rfl rfl ?_
      ⟨rfl, rfl, fun _ => rfl⟩
    rw [bind_of_ok (attest_ok (by rfl))]
    unfold autoListEnter
    refine scope_back (c1 := ⟨[], some p, [st, tr], ([.mk (.ulong (cordaId 1)) []], .list, []) :: (pr, .described, re) :: up⟩)
      (c' := ⟨[], some p, [st, tr], ([.mk (.ulong (cordaId 1)) []], .list, []) :: (pr, .described, re) :: up⟩) rfl rfl ?_
      ⟨rfl, rfl, fun _ => rfl⟩
    show (attest .described "Expected a Described type" >>= fun _ => rawDescribed (rawAs f)) _ = _
    rw [bind_of_ok (attest_ok (c := ⟨[], some p, [st, tr], ([.mk (.ulong (cordaId 1)) []], .list, []) :: (pr, .described, re) :: up⟩)
      (by simp only [Cursor.type, hp, Atom.type]))]
    exact h _ rfl
  rw [show attestList = attest .list "Expected a List" from rfl, bind_of_ok h2]
  rfl

private theorem payload_height {c : Cursor} {p st tr : Node} (hc : c.cur = some (envelopeTree p st tr)) :
    p.height + 1 ≤ c.fuel := by
  have h1 := height_kids (v := .list) (ks := [p, st, tr]) (k := p) (by simp)
  have h2 := height_kids (v := .described) (ks := [.mk (.ulong (cordaId 1)) [], .mk .list [p, st, tr]])
    (k := .mk .list [p, st, tr]) (by simp)
  have : (envelopeTree p st tr).height ≤ c.fuel := by simp [Cursor.fuel, hc]
  unfold envelopeTree element at this
  omega

/-- **C49, what is shown.** For a payload in which the keys and values of each map are of the same kind the dump shows
all lists in order, but of a map with `n` entries it shows `n` pairs made of other elements: the `i`-th (from 0) is
made of the elements `3 i + 1` and `3 i + 2`, counting keys and values, or of the last one if there are fewer.
Missing: the keys with their own values. -/
theorem C49_maps_partial (c : Cursor) (e : Raw) (st tr : Node) (hd : e.IsDescribed) (hev : Even e)
    (hc : c.cur = some (envelopeTree (rawTree e) st tr)) : dumpData c = (.ok (rawText slipped e), c) := by
  have hh := payload_height hc
  obtain ⟨v, h1, h2⟩ := raw_dumps e hev (c.fuel + 1) (by omega)
  rw [← h2]
  refine dumpData_eq hc ?_ ?_
  · cases e <;> first | exact hd.elim | (rw [rawTree]; rfl)
  · cases e <;> first | exact hd.elim | exact h1 .described rfl

mutual

private theorem even_of_lists : (e : Raw) → OnlyLists e → Even e
  | .leaf n, h => by rw [OnlyLists] at h; rw [Even]; exact h
  | .list es, h => by rw [OnlyLists] at h; rw [Even]; exact evens_of_lists es h
  | .map es, h => by rw [OnlyLists] at h; exact h.elim
  | .describedList d es, h => by rw [OnlyLists] at h; rw [Even]; exact evens_of_lists es h
  | .describedMap d es, h => by rw [OnlyLists] at h; exact h.elim

private theorem evens_of_lists : (es : List Raw) → AllOnlyLists es → Evens es
  | [], _ => by rw [Evens]; trivial
  | e :: es, h => by rw [AllOnlyLists] at h; rw [Evens]; exact ⟨even_of_lists e h.1, evens_of_lists es h.2⟩

end

mutual

private theorem text_of_lists (f g : List Str → List Str) : (e : Raw) → OnlyLists e → rawText f e = rawText g e
  | .leaf n, h => by rw [rawText, rawText]
  | .list es, h => by rw [OnlyLists] at h; rw [rawText, rawText, texts_of_lists f g es h]
  | .map es, h => by rw [OnlyLists] at h; exact h.elim
  | .describedList d es, h => by rw [OnlyLists] at h; rw [rawText, rawText, texts_of_lists f g es h]
  | .describedMap d es, h => by rw [OnlyLists] at h; exact h.elim

private theorem texts_of_lists (f g : List Str → List Str) : (es : List Raw) → AllOnlyLists es →
    rawTexts f es = rawTexts g es
  | [], _ => by rw [rawTexts, rawTexts]
  | e :: es, h => by
    rw [AllOnlyLists] at h
    rw [rawTexts, rawTexts, text_of_lists f g e h.1, texts_of_lists f g es h.2]

end

/-- **C48.** For a described list of lists, described lists and other values, to any depth, the dump shows every
element in order, and leaves the cursor where it was. -/
theorem C48_lists (c : Cursor) (e : Raw) (st tr : Node) (hd : e.IsDescribed) (hl : OnlyLists e)
    (hc : c.cur = some (envelopeTree (rawTree e) st tr)) : dumpData c = (.ok (rawText entries e), c) := by
  rw [C49_maps_partial c e st tr hd (even_of_lists e hl) hc, text_of_lists slipped entries e hl]

/-- A blob with that payload. -/
def rawBlob (e : Raw) : Cursor := Cursor.root (envelopeTree (rawTree e) (.mk .null []) (.mk .null []))

private def number (n : Int) : Raw := .leaf (.mk (.int n) [])

/-- The map `1 : 2, 3 : 4, 5 : 6`. -/
def sixNumbers : Raw := .describedMap "m".toList [number 1, number 2, number 3, number 4, number 5, number 6]

/-- **C49 is false.** A map `1 : 2, 3 : 4, 5 : 6` is shown as `2 : 3, 5 : 6, 6 : 6`. -/
theorem C49_maps_violated : (dumpData (rawBlob sixNumbers)).1 = .ok "m : [ 2 : 3, 5 : 6, 6 : 6 ]".toList
    ∧ rawText entries sixNumbers = "m : [ 1 : 2, 3 : 4, 5 : 6 ]".toList := by decide +kernel

private theorem slipped_two (a b : Str) : slipped [a, b] = [colon b b] := by
  unfold slipped
  rw [if_neg (by simp), show ([a, b].length + 1) / 2 = 1 by simp]
  simp [List.range_succ, upTo]

/-- **C49 is false for nearly every map.** A map with a single entry whose key and value have different texts (both of
them plain values) is shown as `value : value`. -/
theorem C49_single_violated (c : Cursor) (d : Str) (k v st tr : Node) (hk : Even (.leaf k)) (hv : Even (.leaf v))
    (hne : leafText k.val ≠ leafText v.val)
    (hc : c.cur = some (envelopeTree (rawTree (.describedMap d [.leaf k, .leaf v])) st tr)) :
    dumpData c = (.ok (colon d (brackets [colon (leafText v.val) (leafText v.val)])), c)
    ∧ (dumpData c).1 ≠ .ok (rawText entries (.describedMap d [.leaf k, .leaf v])) := by
  have h1 := C49_maps_partial c (.describedMap d [.leaf k, .leaf v]) st tr trivial
    (by rw [Even, Evens, Evens, Evens]; exact ⟨⟨hk, hv, trivial⟩, 0, by simp [Raw.kind]⟩) hc
  have h2 : rawText slipped (.describedMap d [.leaf k, .leaf v])
      = colon d (brackets [colon (leafText v.val) (leafText v.val)]) := by
    rw [rawText, rawTexts, rawTexts, rawTexts, rawText, rawText, slipped_two]
  have h3 : rawText entries (.describedMap d [.leaf k, .leaf v])
      = colon d (brackets [colon (leafText k.val) (leafText v.val)]) := by
    rw [rawText, rawTexts, rawTexts, rawTexts, rawText, rawText, entries, if_neg (by simp)]
    rfl
  rw [h1, h2, h3]
  refine ⟨rfl, fun e => hne ?_⟩
  simp only [Res.ok.injEq] at e
  have e1 := List.append_cancel_left e
  unfold brackets at e1
  have e2 := List.append_cancel_left (List.append_cancel_right e1)
  simp only [commas_cons, List.map_nil, List.flatten_nil, List.append_nil] at e2
  unfold colon at e2
  exact (List.append_cancel_right (List.append_cancel_right e2)).symm


/-! ### Any input -/

/-- The first look at the envelope. -/
def keyCheck : Prog Unit := do
  let key ← readUint64
  if stripCorda key = ENVELOPE then pure () else ub "assert"

/-- The second. -/
def payloadDump (f : Nat) : Prog Val := do
  attest .list "Expected a List"
  autoListEnter (fun _ => do
    attest .described "Expected a Described type"
    rawDescribed (rawAs f)) true

theorem scoped_keyCheck : Scoped keyCheck :=
  scoped_bind (scoped_autoNext (scoped_look _)) fun _ => scoped_ite (scoped_pure _) (scoped_ub _)

theorem scoped_entered (f : Nat) : Scoped (do
    attest .described "Expected a Described type"
    rawDescribed (rawAs f) : Prog Val) :=
  scoped_guard_bind (scoped_attest _ _) (guard_attest _ _ (by simp)) fun _ => scopedOn_rawDescribed (scopedOn_rawAs f)

theorem scoped_payloadDump (f : Nat) : Scoped (payloadDump f) :=
  scoped_guard_bind (scoped_attest _ _) (guard_attest _ _ (by simp)) fun _ =>
    scopedOn_autoListEnter fun _ => scoped_entered f

theorem dumpData_described {c : Cursor} (h : c.type = .described) : dumpData c =
    ((do autoEnter keyCheck; let v ← autoEnter (payloadDump c.fuel) true; pure v.dump : Prog Str) c) := by
  unfold dumpData
  rw [bind_of_ok (show isDescribed c = (.ok true, c) by simp [isDescribed, look, h]), if_pos rfl,
    show attestDescribed = attest .described "Expected a Described type" from rfl, bind_of_ok (attest_ok h)]
  rfl

theorem dumpData_other {c : Cursor} (h : c.type ≠ .described) : dumpData c = (.ub "null value", c) := by
  unfold dumpData
  rw [bind_of_ok (show isDescribed c = (.ok false, c) by simp [isDescribed, look, h])]
  rfl

private theorem low_of_cur {c : Cursor} : (c.cur.isSome = true) → c.fuel ≠ 0 := by
  intro h
  obtain ⟨n, hn⟩ := Option.isSome_iff_exists.mp h
  have := height_pos n
  simp [Cursor.fuel, hn]; omega

/-- The key the dump looks at: that of the first child, if it is an unsigned long. -/
def firstKey (n : Node) : Nat :=
  match n.kids with
  | .mk (.ulong id) _ :: _ => id
  | _ => 0

theorem keyCheck_at {c : Cursor} {n : Node} (hc : c.cur = some n) :
    autoEnter keyCheck false c = (if firstKey n % 2 ^ 32 = 1 then .ok () else .ub "assert", c) := by
  have hs : c.cur.isSome = true := by rw [hc]; rfl
  rw [autoEnter_eq scoped_keyCheck hs]
  obtain ⟨u, hu⟩ := enter_next_start c n hc
  simp only [Bool.false_eq_true, if_false, hu, (scoped_keyCheck _).2]
  have hk : readUint64 (start n.kids) = (.ok (firstKey n), (start n.kids).next.2) := by
    simp only [readUint64, autoNext, look, getUlong, firstKey, Cursor.val, start]
    cases n.kids with
    | nil => rfl
    | cons k ks =>
      cases k with
      | mk a l => cases a <;> rfl
  unfold keyCheck
  rw [bind_of_ok hk]
  have : stripCorda (firstKey n) = firstKey n % 2 ^ 32 := by
    unfold stripCorda
    exact Nat.and_two_pow_sub_one_eq_mod (firstKey n) 32
  rw [this]
  by_cases h1 : firstKey n % 2 ^ 32 = 1
  · rw [if_pos h1, if_pos h1]; rfl
  · rw [if_neg h1, if_neg h1]; rfl

/-- **C58, position.** Whatever the data is, and whether the dump returns, throws or runs into undefined behaviour: the
cursor is where it was. -/
theorem C58_position (c : Cursor) : (dumpData c).2 = c := by
  by_cases h : c.type = .described
  · have hs : c.cur.isSome = true := on_of_type (by rw [h]; simp)
    rw [dumpData_described h]
    have h1 := autoEnter_eq (nx := false) scoped_keyCheck hs
    have h2 := autoEnter_eq (nx := true) (scoped_payloadDump c.fuel) hs
    rw [bind_def, h1]
    split
    · rename_i heq
      simp only [Prod.mk.injEq] at heq
      rw [← heq.2, bind_def, h2]
      split
      · rename_i heq'
        simp only [Prod.mk.injEq] at heq'
        rw [← heq'.2]; rfl
      · rename_i heq'
        simp only [Prod.mk.injEq] at heq'
        exact heq'.2.symm
      · rename_i heq'
        simp only [Prod.mk.injEq] at heq'
        exact heq'.2.symm
    · rename_i heq
      simp only [Prod.mk.injEq] at heq
      exact heq.2.symm
    · rename_i heq
      simp only [Prod.mk.injEq] at heq
      exact heq.2.symm
  · rw [dumpData_other h]

/-- **C58, defined behaviour.** The dump has undefined behaviour exactly if the data is not a described value whose
first child is an unsigned long with the envelope's number in its lower 32 bits; everything else that is wrong makes it
throw. -/
theorem C58_defined (c : Cursor) : (dumpData c).1.Defined ↔
    ∃ n, c.cur = some n ∧ n.val = .described ∧ firstKey n % 2 ^ 32 = 1 := by
  by_cases h : c.type = .described
  · have hs : c.cur.isSome = true := on_of_type (by rw [h]; simp)
    obtain ⟨n, hn⟩ := Option.isSome_iff_exists.mp hs
    have hv : n.val = .described := by
      rw [type_of_cur hn] at h
      cases n with | mk a ks => cases a <;> simp [Node.val, Atom.type] at h ⊢
    rw [dumpData_described h, bind_def, keyCheck_at hn]
    by_cases hk : firstKey n % 2 ^ 32 = 1
    · rw [if_pos hk]
      refine ⟨fun _ => ⟨n, hn, hv, hk⟩, fun _ => ?_⟩
      simp only
      rw [bind_def, autoEnter_eq (scoped_payloadDump c.fuel) hs]
      have hm : (payloadDump c.fuel (if true = true then c.enter.next.2.next.2 else c.enter.next.2)).1.Defined := by
        rw [if_pos rfl]
        have hl : Low n.height (Cursor.root n) := by
          intro m hm
          simp [Cursor.root, Cursor.level] at hm
          rw [hm]; exact Nat.le_refl _
        obtain ⟨k, hk⟩ : ∃ k, n.height = k + 1 := ⟨n.height - 1, by have := height_pos n; omega⟩
        have hl' : Low k c.enter := by
          rw [hk] at hl
          have := Low.enter (c := Cursor.root n) rfl hl
          intro m hm
          apply this
          cases n with
          | mk a ks => simpa [Cursor.enter, hn, Cursor.level, Cursor.root] using hm
        have hl2 := (hl'.keeps (Cursor.next_keeps _)).keeps (Cursor.next_keeps _)
        have hf : c.fuel = k + 1 := by simp [Cursor.fuel, hn, hk]
        have ht : MildAll k (payloadDump (k + 1)) := by
          unfold payloadDump
          refine mildAll_guard (mild_attest _ _) (scoped_attest _ _) (guard_attest _ _ (by simp)) fun _ => ?_
          cases k with
          | zero => exact mild_zero _
          | succ k =>
            refine mild_autoListEnter fun _ => ?_
            refine mildAll_guard (mild_attest _ _) (scoped_attest _ _) (guard_attest _ _ (by simp)) fun _ => ?_
            exact (mild_rawDescribed (scopedOn_rawAs _) (still_rawAs _) (mild_rawAs _)).mono (by omega)
        rw [hf]
        exact ht _ hl2
      cases hr : (payloadDump c.fuel (if true = true then c.enter.next.2.next.2 else c.enter.next.2)).1 with
      | ok v => trivial
      | throw m => trivial
      | ub m => rw [hr] at hm; exact hm
    · rw [if_neg hk]
      refine ⟨fun h => h.elim, ?_⟩
      rintro ⟨m, hm, -, h3⟩
      rw [hn] at hm
      simp only [Option.some.injEq] at hm
      subst hm
      exact absurd h3 hk
  · rw [dumpData_other h]
    refine ⟨fun h => h.elim, ?_⟩
    rintro ⟨n, hn, hv, -⟩
    exact absurd (by rw [type_of_cur hn, hv]; rfl) h

/-! ### Examples -/

example : (dumpData (rawBlob (.describedList "f".toList [number 1, .list [], .list [number 2, .list [number 3],
    .describedList "g".toList [.leaf (.mk (.string "x".toList) [])]], .leaf (.mk .null [])]))).1
    = .ok "f : [ 1, [ <<<Empty List>>> ], [ 2, [ 3 ], g : [ x ] ], null ]".toList := by decide +kernel
example : OnlyLists (.describedList "f".toList [number 1, .list []]) := by
  simp [OnlyLists, AllOnlyLists, number, Node.val, Atom.type]
example : (dumpData (rawBlob (.describedMap "m".toList [number 1, number 2]))).1 = .ok "m : [ 2 : 2 ]".toList := by
  decide +kernel
/-- Keys and values of different kinds. -/
example : (dumpData (rawBlob (.describedMap "m".toList [number 1, .list [], number 2, .list []]))).1
    = .throw "Expected a List" := by decide +kernel
example : (dumpData (Cursor.root (.mk (.int 1) []))).1 = .ub "null value" := by decide +kernel
example : (dumpData (Cursor.root (.mk .described [.mk (.ulong 2) []]))).1 = .ub "assert" := by decide +kernel
example : (dumpData (Cursor.root (.mk .described [.mk (.ulong 1) []]))).1 = .throw "Expected a List" := by decide +kernel

#print axioms C48_lists
#print axioms C49_maps_partial
#print axioms C49_maps_violated
#print axioms C49_single_violated
#print axioms C58_position
#print axioms C58_defined

end Corda.Props
