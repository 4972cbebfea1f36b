import Verif.Lemmas.Trace
import Verif.Props.AnyData

/-
C97: what the data dumper prints.
-/

namespace Corda.Props
open Corda Prog Spec

/-- The names of the source files, for the description. -/
def sources (f : Files) : Sources := ⟨f.blob, f.wrapper⟩

/-! ### The lines -/

private theorem list_line (f : Files) : TProg.dbg f.wrapper 299 "YEP! it's a list".toList = TProg.print (listLine (sources f)) := by
  unfold TProg.dbg listLine sources
  rw [show natStr 299 = "299".toList by decide +kernel]
  simp

private theorem map_line (f : Files) : TProg.dbg f.blob 170 "MAP IS NOT EMPTY".toList = TProg.print (mapLine (sources f)) := by
  unfold TProg.dbg mapLine sources
  rw [show natStr 170 = "170".toList by decide +kernel]
  simp

private theorem described_line (f : Files) : TProg.dbg f.blob 212 "dumpDescribed".toList = TProg.print (describedLine (sources f)) := by
  unfold TProg.dbg describedLine sources
  rw [show natStr 212 = "212".toList by decide +kernel]
  simp

private theorem name_line (f : Files) (d : Str) :
    TProg.dbg f.blob 217 ("  FINGERPRINT: ".toList ++ d) = TProg.print (nameLine (sources f) d) := by
  unfold TProg.dbg nameLine sources
  rw [show natStr 217 = "217".toList by decide +kernel]
  simp

private theorem label (t : PnType) : TProg.pnTypeName t ++ " ".toList ++ intStr (TProg.pnTypeNumber t) = typeLabel t := by
  cases t <;> decide +kernel

private theorem key_line (f : Files) (t : PnType) :
    TProg.dbg f.blob 179 ("  ".toList ++ TProg.pnTypeName t ++ " ".toList ++ intStr (TProg.pnTypeNumber t))
      = TProg.print (keyLine (sources f) t) := by
  have h := label t
  unfold TProg.dbg keyLine sources
  rw [show natStr 179 = "179".toList by decide +kernel, ← h]
  simp

private theorem value_line (f : Files) (t : PnType) :
    TProg.dbg f.blob 188 ("  ".toList ++ TProg.pnTypeName t ++ " ".toList ++ intStr (TProg.pnTypeNumber t))
      = TProg.print (valueLine (sources f) t) := by
  have h := label t
  unfold TProg.dbg valueLine sources
  rw [show natStr 188 = "188".toList by decide +kernel, ← h]
  simp

/-! ### The dump with its trace -/

private theorem toldParts_eq (s : Sources) (ns : List Node) : toldParts s ns = ns.map (told s) := by
  induction ns with
  | nil => rw [toldParts]; rfl
  | cons n ns ih => rw [toldParts, ih]; rfl

private theorem tellAt_nth {s : Sources} {ns : List Node} {i : Nat} {n : Node} (h : nth ns i = some n) (t : PnType) :
    tellAt (toldParts s ns) i t = told s n t := by
  unfold nth at h
  unfold tellAt
  rw [toldParts_eq, List.length_map, List.getElem?_map, h]
  rfl

private theorem toldAll_eq (s : Sources) (ns : List Node) : toldAll s ns = ns.map fun n => told s n n.val.type := by
  induction ns with
  | nil => rw [toldAll]; rfl
  | cons n ns ih => rw [toldAll, ih]; rfl

private theorem is_type' {ps : List Node} {i : Nat} :
    Is (Pos ps i) (look Cursor.type) id (.ok (typeHere (nth ps i))) (Pos ps i) :=
  fun c hc => ⟨by simp only [look, typeHere, hc.type]; rfl, fun _ _ => hc⟩

private theorem ist_type {ps : List Node} {i : Nat} :
    IsT (Pos ps i) (TProg.quiet (look Cursor.type)) id (pure (typeHere (nth ps i))) (Pos ps i) := ist_quiet is_type'

/-- Dumped as `told` says, at any place. -/
private def Tells (f : Files) (rec : PnType → TProg Val) (n : Node) : Prop :=
  ∀ ps i t, nth ps i = some n → IsT (Pos ps i) (rec t) Val.dump (told (sources f) n t) (Pos ps i)

private theorem elements_cons (a : Str) (as : List Str) : elements (a :: as) = a :: as := by rw [elements, if_neg (by simp)]

private theorem all_cons_elements {r : Told Str} {rs : List (Told Str)} :
    (do let l ← Told.all (r :: rs); pure (elements l)) = Told.all (r :: rs) := by
  simp only [Told.all, Told.bind_assoc, Told.pure_bind, elements_cons]

variable {f : Files}

private theorem ist_attestList {β : Type} {ps : List Node} {i : Nat} {n : Node} (hn : nth ps i = some n) {k : TProg β} {γ : Type} {g : β → γ}
    {h : Told γ} {R : Cursor → Prop} (hk : n.val.type = .list → IsT (Pos ps i) k g h R) :
    IsT (Pos ps i) (do TProg.attestList f; k) g
      (if n.val.type = .list then (do Told.line (listLine (sources f)); h) else Told.silent (.throw "Expected a List")) R := by
  intro c hc
  have ht : c.type = n.val.type := type_of_cur (hc.1.trans hn)
  by_cases h1 : n.val.type = .list
  · rw [if_pos h1]
    have h2 := (ist_line (s := listLine (sources f)) rfl (hk h1)) c hc
    have e : (do TProg.attestList f; k : TProg β) c = (TProg.print (listLine (sources f)) >>= fun _ => k) c := by
      unfold TProg.attestList
      rw [list_line, TProg.bind_def, TProg.bind_def]
      simp only [TProg.quiet, show Prog.attestList c = (.ok (), c) from attest_ok (ht.trans h1)]
      rfl
    rw [e]
    exact h2
  · rw [if_neg h1]
    have e : (do TProg.attestList f; k : TProg β) c = ((.throw "Expected a List", c), []) := by
      unfold TProg.attestList
      rw [TProg.bind_def, TProg.bind_def]
      simp only [TProg.quiet, show Prog.attestList c = (.throw "Expected a List", c) from attest_no (by rw [ht]; exact h1)]
    rw [e]
    exact ⟨rfl, rfl, fun _ h => by cases h⟩

private theorem list_atom {a : Atom} (h : a.type = .list) : a = .list := by cases a <;> simp_all [Atom.type]
private theorem map_atom {a : Atom} (h : a.type = .map) : a = .map := by cases a <;> simp_all [Atom.type]

private theorem type_valid (n : Node) : n.val.type ≠ .invalid := by
  cases n with | mk a _ => cases a <;> simp [Node.val, Atom.type]

section
variable {rec : PnType → TProg Val} {rec' : PnType → Prog Val} (he : ∀ t, (rec t).erase = rec' t) (hs : ∀ t, ScopedOn (rec' t))

private theorem ist_listBody {ns : List Node} (h : ∀ n ∈ ns, Tells f rec n) : IsT (Pos ns 0) (do
    let t ← TProg.quiet (Prog.look Cursor.type)
    if t = .invalid then pure [.single emptyListText]
    else do
      let elem : TProg Val := do
        let t ← TProg.quiet (Prog.look Cursor.type)
        rec t
      let v ← elem
      let vs ← TProg.whileNext elem
      pure (v :: vs) : TProg (List Val)) (List.map Val.dump)
    (do let l ← Told.all (toldAll (sources f) ns); pure (elements l)) (fun _ => True) := by
  cases ns with
  | nil =>
    refine (ist_bind (h := fun _ => do let l ← Told.all (toldAll (sources f) []); pure (elements l)) ist_type fun t ht => ?_).eq rfl
    have : t = .invalid := by simpa [typeHere, valueOf, nth, pure] using ht.symm
    rw [if_pos this]
    exact ((ist_pure (List.map Val.dump) _).post fun _ _ => trivial).eq rfl
  | cons n ns =>
    refine (ist_bind (h := fun _ => do let l ← Told.all (toldAll (sources f) (n :: ns)); pure (elements l)) ist_type fun t ht => ?_).eq rfl
    have h0 : nth (n :: ns) 0 = some n := rfl
    have hne : t ≠ .invalid := by
      rw [h0] at ht
      have : t = n.val.type := by simpa [typeHere, valueOf, pure] using ht.symm
      rw [this]
      exact type_valid n
    rw [if_neg hne, toldAll_eq]
    simp only [List.map_cons]
    rw [all_cons_elements, Told.all]
    have elem : ∀ i m, nth (n :: ns) i = some m → IsT (Pos (n :: ns) i)
        (do let t ← TProg.quiet (Prog.look Cursor.type); rec t : TProg Val) Val.dump (told (sources f) m m.val.type) (Pos (n :: ns) i) := by
      intro i m hm
      refine (ist_bind (h := fun t => told (sources f) m t) ist_type fun t _ => h m (nth_mem hm) _ _ t hm).eq ?_
      rw [hm]
      rfl
    refine ist_bind (elem 0 n h0) fun v _ => ?_
    refine ist_bind (f := List.map Val.dump) ((ist_whileNext elem 0).eq ?_) fun vs _ => ?_
    · rfl
    · exact (ist_pure (List.map Val.dump) (v :: vs)).post fun _ _ => trivial

include he hs in
private theorem ist_asList {ps : List Node} {i : Nat} {n : Node} (hn : nth ps i = some n) (h : ∀ k ∈ n.kids, Tells f rec k) :
    IsT (Pos ps i) (TProg.rawList f rec) (fun vs => brackets (vs.map Val.dump)) (told (sources f) n .list) (Pos ps i) := by
  obtain ⟨a, ks⟩ := n
  rw [told, if_pos rfl]
  unfold TProg.rawList
  refine (ist_attestList (h := do let l ← Told.all (toldAll (sources f) ks); pure (brackets (elements l))) hn fun hl => ?_).eq rfl
  refine ist_listEnter (Q := fun _ => True) hn (fun _ => ?_) ?_
  · rw [TProg.erase_listBody he]
    exact scoped_listBody hs
  · refine ((ist_listBody h).map brackets).eq ?_
    rw [Told.bind_assoc]
    rfl

private theorem ist_rawStep {ns : List Node} (hne : ns ≠ []) (h : ∀ n ∈ ns, Tells f rec n) (i l : Nat) (ln : PnType → Str)
    (hl : ∀ t, TProg.dbg f.blob l ("  ".toList ++ TProg.pnTypeName t ++ " ".toList ++ intStr (TProg.pnTypeNumber t)) = TProg.print (ln t)) :
    IsT (Pos ns i) (TProg.rawStep f l rec) Val.dump (do
      Told.line (ln (typeHere (nth ns i)))
      tellAt (toldParts (sources f) ns) (i + 1) (typeHere (nth ns i))) (Pos ns (i + 1)) := by
  unfold TProg.rawStep
  obtain ⟨m, hm⟩ := nth_isSome (i + 1) hne
  refine (ist_bind (h := fun t => do Told.line (ln t); told (sources f) m t) (ist_quiet (is_autoNext is_type')) fun t _ => ?_).eq ?_
  · rw [hl]
    exact ist_line rfl (h m (nth_mem hm) _ _ t hm)
  · rw [tellAt_nth hm]
    rfl

private theorem ist_rawPair {ns : List Node} (hne : ns ≠ []) (h : ∀ n ∈ ns, Tells f rec n) (i : Nat) :
    IsT (Pos ns i) (TProg.rawPair f rec) Val.dump (do
      Told.line (keyLine (sources f) (typeHere (nth ns i)))
      let k ← tellAt (toldParts (sources f) ns) (i + 1) (typeHere (nth ns i))
      Told.line (valueLine (sources f) (typeHere (nth ns (i + 1))))
      let v ← tellAt (toldParts (sources f) ns) (i + 2) (typeHere (nth ns (i + 1)))
      pure (colon k v)) (Pos ns (i + 3)) := by
  unfold TProg.rawPair
  refine (ist_bind (h := fun k => do
      let v ← (do
        Told.line (valueLine (sources f) (typeHere (nth ns (i + 1))))
        tellAt (toldParts (sources f) ns) (i + 2) (typeHere (nth ns (i + 1))))
      pure (colon k v)) (ist_rawStep hne h i 179 _ (key_line f)) fun k _ => ?_).eq ?_
  · refine ist_bind (ist_rawStep hne h (i + 1) 188 _ (value_line f)) fun v _ => ?_
    refine (ist_bind (h := fun _ => pure (colon k.dump v.dump)) (ist_quiet is_next) fun _ _ => ?_).eq rfl
    exact (ist_pure Val.dump (.valuePair k v)).eq (by rw [Val.dump]; rfl)
  · rw [Told.bind_assoc]
    simp only [Told.bind_assoc]

include he hs in
private theorem ist_asMap {ps : List Node} {i : Nat} {n : Node} (hn : nth ps i = some n) (h : ∀ k ∈ n.kids, Tells f rec k) :
    IsT (Pos ps i) (TProg.rawMap f rec) (fun vs => brackets (vs.map Val.dump)) (told (sources f) n .map) (Pos ps i) := by
  obtain ⟨a, ns⟩ := n
  rw [told, if_neg (by simp), if_pos rfl]
  unfold TProg.rawMap
  by_cases ha : a.type = .map
  · rw [if_pos ha]
    rw [map_atom ha] at hn
    have hc : Is (Pos ps i) isMapP (fun _ => ()) (.ok ()) (Pos ps i) :=
      is_attest _ _ (by simp) _ _ (fun _ _ _ => rfl) fun hno => by
        exact absurd rfl (hno .map (by rw [hn]; rfl))
    refine (ist_bind (h := fun _ => do
      let l ← slippedTold (sources f) ns (toldParts (sources f) ns)
      pure (brackets l)) (ist_quiet hc) fun _ _ => ?_).eq rfl
    refine ist_mapEnter (Q := fun _ => True) hn (fun k => ?_) ?_
    · rw [TProg.erase_mapBody f he]
      exact scoped_mapBody hs k
    refine IsT.map ?_ brackets
    show IsT (Pos ns 0) _ _ _ _
    by_cases hne : ns = []
    · subst hne
      refine (ist_bind (h := fun _ => slippedTold (sources f) [] (toldParts (sources f) [])) ist_type fun t ht => ?_).eq rfl
      have : t = .invalid := by simpa [typeHere, valueOf, nth, pure] using ht.symm
      rw [if_pos this]
      exact ((ist_pure (List.map Val.dump) _).post fun _ _ => trivial).eq rfl
    · refine (ist_bind (h := fun _ => slippedTold (sources f) ns (toldParts (sources f) ns)) ist_type fun t ht => ?_).eq rfl
      obtain ⟨n, h0⟩ := nth_isSome 0 hne
      have hne' : t ≠ .invalid := by
        rw [h0] at ht
        have : t = n.val.type := by simpa [typeHere, valueOf, pure] using ht.symm
        rw [this]
        exact type_valid n
      rw [if_neg hne', slippedTold, if_neg hne, map_line]
      refine ist_line rfl ((ist_times (k := 3) (ist_rawPair hne h) _ 0).eq ?_)
      congr 1
      apply List.map_congr_left
      intro j _
      simp only [Nat.zero_add]
  · rw [if_neg ha]
    have hc : Is (Pos ps i) isMapP (fun _ => ()) (.throw "Expected a Map") (Pos ps i) :=
      is_attest _ _ (by simp) _ _ (fun b hb hm => by rw [hn] at hb; cases hb; exact absurd hm ha) fun _ => rfl
    exact (ist_bind (h := fun _ => pure []) (ist_quiet hc) fun _ h => by cases h).eq rfl

include he hs in
private theorem ist_described {ps : List Node} {i : Nat} {n : Node} (hn : nth ps i = some n)
    (h : ∀ k ∈ n.kids, ∀ l ∈ k.kids, Tells f rec l) :
    IsT (Pos ps i) (TProg.rawDescribed f rec) Val.dump (told (sources f) n .described) (Pos ps i) := by
  obtain ⟨a, ks⟩ := n
  rw [told, if_neg (by simp), if_neg (by simp), if_pos rfl]
  unfold TProg.rawDescribed
  rw [described_line]
  refine ist_line rfl ?_
  refine ist_enter (Q := fun _ => True) hn ?_ ?_
  · rw [TProg.erase_describedBody f he]
    exact scoped_describedBody hs
  show IsT (Pos ks 0) _ _ _ _
  have hr : IsT (Pos ks 0) TProg.readString id (do Told.line stringLine; Told.silent (textOf (nth ks 0))) (Pos ks 1) :=
    ist_line rfl (ist_quiet is_readString)
  refine (ist_bind (h := fun d => do
    Told.line (nameLine (sources f) d)
    if typeHere (nth ks 1) = .list ∨ typeHere (nth ks 1) = .map then do
      let x ← tellAt (toldParts (sources f) ks) 1 (typeHere (nth ks 1))
      pure (colon d x)
    else Told.silent (.throw "Described data must be either a list or map")) hr fun fp _ => ?_).eq (by rw [Told.bind_assoc])
  rw [name_line]
  refine ist_line rfl ?_
  refine (ist_bind (h := fun t => if t = .list ∨ t = .map then do
      let x ← tellAt (toldParts (sources f) ks) 1 t
      pure (colon fp x)
    else Told.silent (.throw "Described data must be either a list or map")) ist_type fun t ht => ?_).eq rfl
  have ht' : typeHere (nth ks 1) = t := by simpa [pure] using ht
  by_cases h1 : t = .list
  · rw [if_pos h1]
    simp only [id, h1, true_or, if_true]
    cases hk : nth ks 1 with
    | none => rw [hk, h1] at ht'; cases ht'
    | some m =>
      rw [tellAt_nth hk]
      refine ist_bind (h := fun x => pure (colon fp x)) (ist_asList he hs hk (h m (nth_mem hk))) fun vs _ => ?_
      refine ((ist_pure Val.dump (.pairList fp vs)).eq ?_).post fun _ _ => trivial
      rw [pairList_dump (some fp) vs]
      rfl
  · rw [if_neg h1]
    by_cases h2 : t = .map
    · rw [if_pos h2]
      simp only [id, h2, or_true, if_true]
      cases hk : nth ks 1 with
      | none => rw [hk, h2] at ht'; cases ht'
      | some m =>
        rw [tellAt_nth hk]
        refine ist_bind (h := fun x => pure (colon fp x)) (ist_asMap he hs hk (h m (nth_mem hk))) fun vs _ => ?_
        refine ((ist_pure Val.dump (.pairList fp vs)).eq ?_).post fun _ _ => trivial
        rw [pairList_dump (some fp) vs]
        rfl
    · rw [if_neg h2]
      simp only [id, h1, h2, or_self, if_false]
      exact ist_quiet (is_throw _ _)

end

private theorem ist_rawAs (fuel : Nat) : ∀ n : Node, n.height ≤ fuel → Tells f (TProg.rawAs f fuel) n := by
  induction fuel with
  | zero => intro n h; have := height_pos n; omega
  | succ fuel ih =>
    intro n hh ps i t hn
    have hk : ∀ k ∈ n.kids, Tells f (TProg.rawAs f fuel) k := fun k hk => by
      cases n with
      | mk a ks =>
        have := height_kids (v := a) (ks := ks) hk
        exact ih k (by omega)
    have hkk : ∀ k ∈ n.kids, ∀ l ∈ k.kids, Tells f (TProg.rawAs f fuel) l := fun k hk l hl => by
      cases n with
      | mk a ks =>
        have h1 := height_kids (v := a) (ks := ks) hk
        cases k with
        | mk b ls =>
          have h2 := height_kids (v := b) (ks := ls) hl
          exact ih l (by omega)
    have he := TProg.erase_rawAs f fuel
    have hs := scopedOn_rawAs fuel
    by_cases h1 : t = .list
    · subst h1
      refine (ist_bind (h := fun x => pure x) (ist_asList he hs hn hk) fun vs _ => ?_).eq (Told.bind_pure _)
      exact (ist_pure Val.dump (.singleList vs)).eq (by rw [pairList_dump none vs]; rfl)
    by_cases h2 : t = .map
    · subst h2
      refine (ist_bind (h := fun x => pure x) (ist_asMap he hs hn hk) fun vs _ => ?_).eq (Told.bind_pure _)
      exact (ist_pure Val.dump (.singleList vs)).eq (by rw [pairList_dump none vs]; rfl)
    by_cases h3 : t = .described
    · subst h3
      exact ist_described he hs hn hkk
    · have hq : TProg.rawAs f (fuel + 1) t = TProg.quiet rawPrimitive := by cases t <;> first | rfl | contradiction
      rw [hq]
      obtain ⟨a, ks⟩ := n
      rw [told, if_neg h1, if_neg h2, if_neg h3]
      intro c hc
      refine ist_quiet (P := Pos ps i) (Q := Pos ps i) (r := .ok (leafText a)) (fun c hc => ?_) c hc
      rw [rawPrimitive_leaf c (hc.1.trans hn)]
      exact ⟨rfl, fun _ _ => hc⟩

private def secondLook (f : Files) (fuel : Nat) : TProg Val := do
  TProg.attestList f
  TProg.autoListEnter (fun _ => do
    TProg.quiet Prog.attestDescribed
    TProg.rawDescribed f (TProg.rawAs f fuel))

private theorem erase_secondLook (f : Files) (fuel : Nat) : (secondLook f fuel).erase = payloadDump fuel := by
  unfold secondLook payloadDump
  rw [TProg.erase_bind, TProg.erase_attestList]
  refine congrArg (fun k => Prog.bind Prog.attestList k) ?_
  funext _
  rw [TProg.erase_autoListEnter]
  refine congrArg (fun k => Prog.autoListEnter k true) ?_
  funext _
  rw [TProg.erase_bind, TProg.erase_rawDescribed f (TProg.erase_rawAs f fuel)]
  rfl

/-- **C97, the trace.** Whatever the tree and the position, what is printed while the data is dumped is what the direct description says;
the outcome is the one without the trace. -/
theorem C97_trace (f : Files) (c : Cursor) :
    TProg.dumpData f c = ((dataText c.cur, c), (dataTold (sources f) c.cur).out) ∧ (dataTold (sources f) c.cur).res = dataText c.cur := by
  have h0 : (TProg.dumpData f c).1 = (dataText c.cur, c) := (TProg.erase_dumpData f c).trans (C85_data c)
  suffices h : (TProg.dumpData f c).2 = (dataTold (sources f) c.cur).out ∧
      (TProg.dumpData f c).1.1 = (dataTold (sources f) c.cur).res by
    refine ⟨Prod.ext h0 h.1, ?_⟩
    rw [← h.2, h0]
  by_cases h : c.type = .described
  · have hs : c.cur.isSome = true := on_of_type (by rw [h]; simp)
    obtain ⟨n, hn⟩ := Option.isSome_iff_exists.mp hs
    have hk : typeHere c.cur = .described := by
      rw [hn, ← h, type_of_cur hn]; rfl
    have hkey : numberHere (nth (kidsOf c.cur) 0) = firstKey n := by
      rw [hn]
      show numberHere (nth n.kids 0) = firstKey n
      unfold firstKey
      cases n.kids with
      | nil => rfl
      | cons k ks => cases k with | mk a l => cases a <;> rfl
    have hd : TProg.dumpData f c = (do
        TProg.quiet (Prog.autoEnter keyCheck)
        let v ← TProg.autoEnter (secondLook f c.fuel) true
        pure v.dump : TProg Str) c := by
      unfold TProg.dumpData
      rw [TProg.bind_def]
      simp only [TProg.quiet, show isDescribed c = (.ok true, c) by simp [isDescribed, look, h], if_true, List.nil_append]
      have ha : TProg.quiet Prog.attestDescribed c = ((.ok (), c), []) := by
        show (Prog.attestDescribed c, []) = _
        rw [show Prog.attestDescribed c = (.ok (), c) from attest_ok h]
      have : ∀ k : TProg Str, (TProg.quiet Prog.attestDescribed >>= fun _ => k) c = k c := by
        intro k
        rw [TProg.bind_def, ha]
        rfl
      exact this _
    rw [hd, TProg.bind_def]
    simp only [TProg.quiet, keyCheck_at hn]
    unfold dataTold
    rw [if_pos hk, hkey]
    by_cases h1 : firstKey n % 2 ^ 32 = 1
    · rw [if_pos h1, if_pos h1]
      simp only [List.nil_append]
      have hp : IsT (Pos n.kids 1) (secondLook f c.fuel) Val.dump (do
          let ps ← Told.silent (listParts (nth n.kids 1))
          Told.line (listLine (sources f))
          firstTold (sources f) ps) (Pos n.kids 1) := by
        unfold secondLook
        have hl : IsT (Pos n.kids 1) (TProg.attestList f) (fun _ => kidsOf (nth n.kids 1)) (do
            let ps ← Told.silent (listParts (nth n.kids 1))
            Told.line (listLine (sources f))
            pure ps) (Pos n.kids 1) := by
          unfold TProg.attestList
          refine ist_bind (ist_quiet is_attestList) fun _ _ => ?_
          rw [list_line]
          exact fun c hc => ⟨rfl, rfl, fun _ _ => hc⟩
        refine (ist_bind (h := firstTold (sources f)) hl fun _ hl' => ?_).eq (by simp only [Told.bind_assoc]; rfl)
        have hl'' : listParts (nth n.kids 1) = .ok (kidsOf (nth n.kids 1)) := by
          rw [Told.bind_def] at hl'
          simp only [Told.silent] at hl'
          cases hx : listParts (nth n.kids 1) with
          | ok ps =>
            rw [hx] at hl'
            simpa [Told.bind_def, Told.line, pure] using hl'
          | throw m => rw [hx] at hl'; cases hl'
          | ub m => rw [hx] at hl'; cases hl'
        have hb := list_some hl''
        refine ist_listEnter (Q := fun _ => True) hb (fun _ => ?_) ?_
        · rw [TProg.erase_bind, TProg.erase_rawDescribed f (TProg.erase_rawAs f _)]
          exact scoped_entered _
        generalize hps : kidsOf (nth n.kids 1) = ps at hb ⊢
        show IsT (Pos ps 0) _ _ _ _
        unfold firstTold
        refine ist_bind (ist_quiet is_attestDescribed) fun _ hd => ?_
        have hq := described_some hd
        generalize kidsOf (nth ps 0) = qs at hq
        simp only [hq]
        refine (ist_described (TProg.erase_rawAs f _) (scopedOn_rawAs _) hq fun k hk l hl => ist_rawAs _ l ?_).post fun _ _ => trivial
        have e1 : n.height ≤ c.fuel := by simp [Cursor.fuel, hn]
        have e2 : (Node.mk .list ps) ∈ n.kids := nth_mem hb
        have e3 := nth_mem hq
        have f1 : (Node.mk .list ps).height < n.height := by
          cases n with | mk a ks => exact height_kids (v := a) (ks := ks) e2
        have f2 := height_kids (v := .list) e3
        have f3 := height_kids (v := .described) (ks := qs) hk
        have f4 : l.height < k.height := by
          cases k with | mk a ks => exact height_kids (v := a) (ks := ks) hl
        omega
      have hx := hp _ (pos_enter hn).next
      have hz : (TProg.autoEnter (secondLook f c.fuel) true c).2 = (secondLook f c.fuel c.enter.next.2.next.2).2 := rfl
      have hy : (TProg.autoEnter (secondLook f c.fuel) true c).1.1 = (secondLook f c.fuel c.enter.next.2.next.2).1.1 := rfl
      rw [hn]
      show _ = (Told.out (do
          let ps ← Told.silent (listParts (nth n.kids 1))
          Told.line (listLine (sources f))
          firstTold (sources f) ps)) ∧ _ = (Told.res (do
          let ps ← Told.silent (listParts (nth n.kids 1))
          Told.line (listLine (sources f))
          firstTold (sources f) ps))
      rw [← hx.1, ← hx.2.1, ← hy, ← hz, TProg.bind_def]
      rcases TProg.autoEnter (secondLook f c.fuel) true c with ⟨⟨r, c'⟩, o⟩
      cases r <;> simp [pure]
    · rw [if_neg h1, if_neg h1]
      exact ⟨rfl, rfl⟩
  · have hk : typeHere c.cur ≠ .described := by
      intro hk
      apply h
      unfold typeHere valueOf at hk
      unfold Cursor.type
      cases hc : c.cur with
      | none => rw [hc] at hk; cases hk
      | some n => rw [hc] at hk; exact hk
    unfold TProg.dumpData dataTold
    rw [if_neg hk, TProg.bind_def]
    simp only [TProg.quiet, show isDescribed c = (.ok false, c) by simp [isDescribed, look, h]]
    exact ⟨rfl, rfl⟩

#print axioms C97_trace

end Corda.Props
