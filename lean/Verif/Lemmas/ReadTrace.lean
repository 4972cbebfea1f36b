import Verif.Spec.ReadTrace
import Verif.Lemmas.Trace
import Verif.Lemmas.ObjectAt
import Verif.Props.SchemaDump
import Verif.Lemmas.WriteTrace

/-
Lemmas for C103.
-/

namespace Corda.ReadTrace
open Corda Spec ObjectAt TProg

/-! ### Without the prints -/

theorem erase_note (w : ReadCompiled) (file : RSrc) (line : Nat) (text : Str) : (note w file line text).erase = pure () := rfl

theorem erase_said (out : List Str) : (TProg.say out).erase = pure () := rfl

theorem erase_guarded {α : Type} (body : TProg α) (stop : Cursor → Cursor) (farewell : List Str) :
    (guarded body stop farewell).erase = fun c => ((body.erase c).1, stop (body.erase c).2) := by
  funext c
  show (guarded body stop farewell c).1 = _
  unfold guarded TProg.erase
  dsimp only
  rcases (body c).1 with ⟨_ | _ | _, _⟩ <;> rfl

theorem pure_then {α : Type} (q : Prog α) : ((pure () : Prog Unit) >>= fun _ => q) = q := rfl

theorem then_unit (p : Prog Unit) : (p >>= fun _ => (pure () : Prog Unit)) = p := by
  funext c
  rw [Prog.bind_def]
  rcases p c with ⟨_ | _ | _, _⟩ <;> rfl

theorem erase_listHere (w : ReadCompiled) : (listHere w).erase = Prog.attestList := by
  unfold listHere
  rw [erase_bind]
  simp only [erase_quiet, erase_note, then_unit]

theorem prog_bind_pure {α : Type} (p : Prog α) : (p >>= fun v => (pure v : Prog α)) = p := by
  funext c
  rw [Prog.bind_def]
  rcases p c with ⟨_ | _ | _, _⟩ <;> rfl

theorem erase_primGet (w : ReadCompiled) (t : PrimType) : (primGet w t).erase = Prog.primGet t := by
  unfold primGet
  simp only [erase_bind, erase_quiet, erase_note, erase_pure, pure_then, prog_bind_pure]

theorem erase_startRead (w : ReadCompiled) : (startRead w).erase = Prog.startRead := by
  unfold startRead Prog.startRead
  simp only [erase_bind, erase_quiet, erase_note, pure_then, erase_listHere]
  rfl

theorem erase_composite {α : Type} (w : ReadCompiled) (name : Str) (body : TProg α) :
    (composite w name body).erase = Prog.composite body.erase := by
  unfold composite
  simp only [erase_bind, erase_note, pure_then, erase_startRead, erase_guarded]
  funext c
  rw [Prog.bind_def]
  unfold Prog.composite
  rcases Prog.startRead c with ⟨_ | _ | _, _⟩ <;> rfl

theorem erase_announce (w : ReadCompiled) (ptr : Bool) (name : Str) : (announce w ptr name).erase = pure () := by
  cases ptr <;> rfl

theorem erase_strange (w : ReadCompiled) (key : Nat) : (strange w key).erase = pure () := by
  unfold strange
  split <;> rfl

theorem erase_primitive (w : ReadCompiled) (ptr : Bool) (t : PrimType) : (primitive w t).erase = Prog.readProp (.prim ptr t) := by
  unfold primitive
  rw [Prog.readProp]
  simp only [erase_bind, erase_note, pure_then, erase_guarded, erase_primGet, erase_pure]
  rfl

mutual

theorem erase_readProp (w : ReadCompiled) : (p : NProp) → (TProg.readProp w p).erase = Prog.readProp p.plain
  | .prim ptr t => by rw [TProg.readProp, NProp.plain, erase_primitive w ptr t]
  | .obj ptr name s => by
    rw [TProg.readProp, NProp.plain, Prog.readProp, erase_composite, erase_bind, erase_announce, pure_then, erase_bind, erase_said,
      pure_then, erase_bind, erase_readShape w s]
    simp only [erase_bind, erase_said, erase_pure, pure_then, prog_bind_pure]
  | .vector name => by
    rw [TProg.readProp, NProp.plain, Prog.readProp, erase_composite]
    simp only [erase_bind, erase_note, pure_then, erase_listHere, erase_quiet]

theorem erase_readShape (w : ReadCompiled) : (s : NShape) → (TProg.readShape w s).erase = Prog.readShape s.plain
  | .mk ps => by
    rw [TProg.readShape, NShape.plain, Prog.readShape, erase_bind, erase_readProps w ps]
    rfl

theorem erase_readProps (w : ReadCompiled) : (ps : List NProp) → (TProg.readProps w ps).erase = Prog.readProps (NShape.plainAll ps)
  | [] => by rw [TProg.readProps, NShape.plainAll, Prog.readProps]; rfl
  | p :: ps => by
    rw [TProg.readProps, NShape.plainAll, Prog.readProps]
    simp only [erase_bind, erase_note, pure_then, erase_readProp w p, erase_readProps w ps, erase_pure]

end

theorem erase_readyPayload (w : ReadCompiled) : (TProg.readyPayload w).erase = Prog.readyPayload := by
  unfold TProg.readyPayload Prog.readyPayload
  simp only [erase_bind, erase_quiet, erase_note, pure_then, erase_listHere, erase_strange, erase_autoEnter]
  rfl

theorem erase_deserialise (w : ReadCompiled) (p : NProp) : (TProg.deserialise w p).erase = Prog.deserialise p.plain := by
  unfold TProg.deserialise Prog.deserialise
  simp only [erase_bind, erase_note, pure_then, erase_readyPayload, erase_readProp]

/-! ### With the prints -/

/-- The cursor is exactly there. -/
def At (c : Cursor) : Cursor → Prop := fun x => x = c

theorem ist_note {P : Cursor → Prop} (w : ReadCompiled) (file : RSrc) (n : Nat) (l : String) (t t' : Str) (h : natStr n = l.toList) (e : t = t') :
    IsT P (note w file n t) id (saying w file l t') P := by
  subst e
  intro c hc
  refine ⟨rfl, ?_, fun _ _ => hc⟩
  show [traceLine (w.file file) n t] = [remark (w.file file) l.toList t]
  rw [TWr.line_eq _ _ _ _ h]

/-- A line first. -/
theorem ist_first {γ δ : Type} {P R : Cursor → Prop} (w : ReadCompiled) (file : RSrc) (n : Nat) (l : String) (t t' : Str)
    (h : natStr n = l.toList) (e : t = t') {k : TProg γ} {g : γ → δ} {r : Told δ} (hk : IsT P k g r R) :
    IsT P (note w file n t >>= fun _ => k) g (saying w file l t' >>= fun _ => r) R :=
  ist_bind (h := fun _ => r) (ist_note w file n l t t' h e) fun _ _ => hk

theorem ist_say {P : Cursor → Prop} (out : List Str) : IsT P (TProg.say out) id ⟨.ok (), out⟩ P := fun _ hc => ⟨rfl, rfl, fun _ _ => hc⟩

theorem ist_last {α : Type} {P : Cursor → Prop} (out : List Str) (v : α) :
    IsT P (TProg.say out >>= fun _ => pure v) id ⟨.ok v, out⟩ P := by
  intro c hc
  refine ⟨rfl, ?_, fun _ _ => hc⟩
  show out ++ [] = out
  exact List.append_nil out

theorem is_described {n : Option Node} {c : Cursor} (h : c.cur = n) :
    Is (At c) Prog.attestDescribed (fun _ => kidsOf n) (describedParts n) (At c) := by
  rintro x rfl
  rcases attestDescribed_at n x h with ⟨ks, h1, h2⟩ | ⟨m, h1, h2⟩
  · have : kidsOf n = ks := by rw [described_some h1]; rfl
    rw [h1, h2, this]
    exact ⟨rfl, fun _ _ => rfl⟩
  · rw [h1, h2]
    exact ⟨rfl, fun _ h => by cases h⟩

theorem is_list {n : Option Node} {c : Cursor} (h : c.cur = n) : Is (At c) Prog.attestList (fun _ => kidsOf n) (listParts n) (At c) := by
  rintro x rfl
  rcases attestList_at n x h with ⟨ks, h1, h2⟩ | ⟨m, h1, h2⟩
  · have : kidsOf n = ks := by rw [list_some h1]; rfl
    rw [h1, h2, this]
    exact ⟨rfl, fun _ _ => rfl⟩
  · rw [h1, h2]
    exact ⟨rfl, fun _ h => by cases h⟩

theorem ist_enterFirst {γ δ : Type} {R : Cursor → Prop} {c : Cursor} {k : TProg γ} {g : γ → δ} {r : Told δ}
    (hk : IsT (At c.enter.next.2) k g r R) : IsT (At c) (quiet Prog.enterFirst >>= fun _ => k) g r R := by
  rintro x rfl
  exact hk _ rfl

theorem ist_number {γ δ : Type} {R : Cursor → Prop} {c : Cursor} {k : Nat → TProg γ} {g : γ → δ} {r : Told δ}
    (hk : IsT (At c.next.2) (k (Prog.getUlong c)) g r R) : IsT (At c) (quiet Prog.readUint64 >>= k) g r R := by
  rintro x rfl
  exact hk _ rfl

theorem ist_look {α γ δ : Type} {R : Cursor → Prop} {c : Cursor} (f : Cursor → α) {k : α → TProg γ} {g : γ → δ} {r : Told δ}
    (hk : IsT (At c) (k (f c)) g r R) : IsT (At c) (quiet (Prog.look f) >>= k) g r R := by
  rintro x rfl
  exact hk _ rfl

theorem number_at {c : Cursor} {n : Option Node} (h : c.cur = n) : Prog.getUlong c = numberIn n := by
  unfold Prog.getUlong numberIn
  rw [val_of h]
  rfl

theorem name_at (id : Nat) : describedToString id = elementName id := by
  have hd : ∀ k ≤ 22, descId k = cordaId k := fun k hk => descId_is hk
  unfold describedToString elementName
  rw [← hd 1 (by decide), ← hd 2 (by decide), ← hd 3 (by decide), ← hd 4 (by decide), ← hd 5 (by decide),
    ← hd 6 (by decide), ← hd 7 (by decide), ← hd 8 (by decide), ← hd 9 (by decide), ← hd 10 (by decide),
    ← hd 11 (by decide)]

theorem strip_at (id : Nat) : stripCorda id = id % 2 ^ 32 := by
  unfold stripCorda
  rw [show (0xffffffff : Nat) = 2 ^ 32 - 1 by decide, Nat.and_two_pow_sub_one_eq_mod]

theorem brief_at {c : Cursor} {n : Option Node} (h : c.cur = n) : c.shown = inBrief n := by
  obtain ⟨p, x, r, u⟩ := c
  cases h
  cases x with
  | some m => exact Props.shown_brief m p r u
  | none => rfl

theorem ist_listHere (w : ReadCompiled) {n : Option Node} {c : Cursor} (h : c.cur = n) :
    IsT (At c) (listHere w) (fun _ => kidsOf n) (listSaid w n) (At c) := by
  unfold listHere listSaid
  have key : IsT (At c) (quiet Prog.attestList >>= fun _ => note w .wrapper 299 "YEP! it's a list".toList) (fun _ => kidsOf n)
      (Told.silent (listParts n) >>= fun ks => saying w .wrapper "299" "YEP! it's a list".toList >>= fun _ => pure (kidsOf n)) (At c) := by
    refine ist_bind (ist_quiet (is_list h)) fun _ _ => ?_
    exact (ist_note w .wrapper 299 "299" _ _ (by decide) rfl).map fun _ => kidsOf n
  refine key.eq ?_
  cases hl : listParts n with
  | ok ks =>
    have : kidsOf n = ks := by rw [list_some hl]; rfl
    rw [this]; rfl
  | throw m => rfl
  | ub m => rfl

theorem listSaid_ok {w : ReadCompiled} {n : Option Node} {ks : List Node} (h : (listSaid w n).res = .ok ks) : n = some (.mk .list ks) := by
  unfold listSaid at h
  cases hl : listParts n with
  | ok ls =>
    rw [hl] at h
    have : ls = ks := by injection h
    subst this
    exact list_some hl
  | throw m => rw [hl] at h; cases h
  | ub m => rw [hl] at h; cases h

theorem ist_startRead (w : ReadCompiled) {n : Option Node} {c : Cursor} (h : c.cur = n) :
    IsT (At c) (startRead w) (fun _ => kidsOf (nth (kidsOf n) 1)) (partsSaid w n) (fun c' => ∃ c2, c' = c2.enter.next.2 ∧ Keeps c.enter c2
      ∧ c2.cur = some (.mk .list (kidsOf (nth (kidsOf n) 1))) ∧ c.cur.isSome = true) := by
  unfold startRead partsSaid
  refine ist_first w .blob 358 "358" _ _ (by decide) rfl ?_
  refine ist_bind (ist_quiet (is_described h)) fun _ hd => ?_
  have hn := described_some hd
  have hcur := h.trans hn
  have hp := pos_enter hcur
  have hp1 := hp.next
  generalize hk : kidsOf n = ks at *
  refine ist_enterFirst (ist_number ?_)
  have hnum : Prog.getUlong c.enter.next.2 = numberIn (nth ks 0) := number_at hp.1
  rw [hnum]
  refine ist_first w .blob 362 "362" _ _ (by decide) (by rw [name_at]; rfl) ?_
  refine ist_bind (ist_listHere w hp1.1) fun _ hl => ?_
  have hl' := listSaid_ok hl
  refine ist_look Cursor.getList ?_
  have hlen : Cursor.getList c.enter.next.2.next.2 = (kidsOf (nth ks 1)).length := by
    have hv : valueOf (nth ks 1) = some .list := by rw [hl']; rfl
    rw [getList_eq hp1]
    show (listElements (nth ks 1)).length = _
    unfold listElements
    rw [hv]
  rw [hlen]
  refine ist_first w .blob 364 "364" _ _ (by decide) rfl ?_
  intro x hx
  cases hx
  refine ⟨rfl, rfl, fun _ _ => ⟨c.enter.next.2.next.2, rfl, (Cursor.next_keeps _).trans (Cursor.next_keeps _), hp1.1.trans hl', by rw [hcur]; rfl⟩⟩

theorem ist_guarded {α : Type} {P Q R : Cursor → Prop} {body : TProg α} {t : Told α} (stop : Cursor → Cursor) (farewell : List Str)
    (h : IsT P body id t Q) (hs : ∀ c, Q c → R (stop c)) : IsT P (guarded body stop farewell) id (t.closed farewell) R := by
  intro c hc
  obtain ⟨h1, h2, h3⟩ := h c hc
  obtain ⟨x, o⟩ := t
  unfold guarded Told.closed
  rcases hb : body c with ⟨⟨r, c'⟩, o'⟩
  rw [hb] at h1 h2 h3
  dsimp only at h1 h2 h3 ⊢
  cases r with
  | ok a => cases h1; cases h2; exact ⟨rfl, rfl, fun _ _ => hs _ (h3 a rfl)⟩
  | throw m => cases h1; cases h2; exact ⟨rfl, rfl, fun _ h => by cases h⟩
  | ub m => cases h1; cases h2; exact ⟨rfl, rfl, fun _ h => by cases h⟩

/-- A composite, given what its body makes of the parts. -/
theorem ist_composite (w : ReadCompiled) {α : Type} {body : TProg α} {n : Option Node} {r : List Node → Told α} (name : Str)
    (hb : ∀ ls c, Pos ls 0 c → IsT (At c) body id (r ls) (Keeps c)) {c : Cursor} (h : c.cur = n) :
    IsT (At c) (composite w name body) id (do
      saying w .readers "64" ("read::Composite::".toList ++ name)
      saying w .readers "70" "AutoComposite".toList
      let ks ← partsSaid w n
      Told.closed (r ks) [remark (w.file .readers) "75".toList "~AutoComposite".toList, remark (w.file .blob) "375".toList "endComposite".toList])
      (At c.next.2) := by
  unfold composite
  refine ist_first w .readers 64 "64" _ _ (by decide) rfl ?_
  refine ist_first w .readers 70 "70" _ _ (by decide) rfl ?_
  refine ist_bind (ist_startRead w h) fun _ _ => ?_
  rintro x ⟨c2, rfl, h3, h4, h5⟩
  have e : compositeOver w = [remark (w.file .readers) "75".toList "~AutoComposite".toList, remark (w.file .blob) "375".toList "endComposite".toList] := by
    unfold compositeOver
    rw [TWr.line_eq _ _ _ "75".toList (by decide), TWr.line_eq _ _ _ "375".toList (by decide)]
  rw [e]
  refine ist_guarded Prog.endRead _ (hb _ _ (pos_enter h4)) (fun c' hk => ?_) _ rfl
  have h8 : c'.exit = c2 := Cursor.exit_of_keeps (by rw [h4]; rfl) ((Cursor.next_keeps _).trans hk)
  show Prog.endRead c' = _
  unfold Prog.endRead
  rw [h8, Cursor.exit_of_keeps h5 h3]

theorem shown_read (w : ReadCompiled) (v : Prim) : v.readShown w = primReadText w v := by
  cases v with
  | bool b => cases b <;> rfl
  | int n => exact intStr_eq n
  | long n => exact intStr_eq n
  | _ => rfl

theorem line_read (w : ReadCompiled) (t : PrimType) (v : Prim) (h : v.type = t) :
    traceLine (w.file .prims) (getLine t) (getText t ++ v.readShown w) = primLine w v := by
  subst h
  rw [shown_read]
  cases v <;> exact TWr.line_eq _ _ _ _ (by dsimp only [Prim.type, getLine]; decide)

theorem primAt_kind (t : PrimType) (n : Option Node) (v : Prim) (h : primAt t n = .ok v) : v.type = t := by
  unfold primAt at h
  split at h <;> first | (cases h; rfl) | cases h

theorem ist_primitive (w : ReadCompiled) (ptr : Bool) (t : PrimType) {n : Option Node} {c : Cursor} (h : c.cur = n) :
    IsT (At c) (primitive w t) id (valueSaid w (.prim ptr t) n) (At c.next.2) := by
  unfold primitive
  rw [valueSaid]
  refine ist_first w .readers 50 "50" _ _ (by decide) rfl ?_
  refine ist_first w .readers 40 "40" _ _ (by decide) rfl ?_
  refine ist_first w .blob 386 "386" _ _ (by decide) rfl ?_
  rw [TWr.line_eq _ _ _ "45".toList (by decide)]
  refine ist_guarded (Q := At c) _ _ ?_ (fun x hx => by cases hx; rfl)
  rintro x rfl
  have e : primGet w t x = (((match primAt t n with | .ok v => .ok v | .throw m => .throw m | .ub m => .ub m), x),
      (match primAt t n with | .ok v => [primLine w v] | _ => [])) := by
    unfold primGet
    rw [TProg.bind_def]
    simp only [quiet, primGet_at t n x h]
    cases hv : primAt t n with
    | ok v =>
      show ((Res.ok v, x), [] ++ ([traceLine (w.file .prims) (getLine t) (getText t ++ v.readShown w)] ++ [])) = _
      rw [line_read w t v (primAt_kind t n v hv)]
      rfl
    | throw m => rfl
    | ub m => rfl
  rw [TProg.bind_def, e]
  cases primAt t n with
  | ok v => exact ⟨rfl, rfl, fun _ _ => rfl⟩
  | throw m => exact ⟨rfl, rfl, fun _ h => by cases h⟩
  | ub m => exact ⟨rfl, rfl, fun _ h => by cases h⟩

mutual

theorem ist_readProp (w : ReadCompiled) : (p : NProp) → {n : Option Node} → {c : Cursor} → c.cur = n →
    IsT (At c) (TProg.readProp w p) id (valueSaid w p n) (At c.next.2)
  | .prim ptr t, n, c, h => by
    rw [TProg.readProp]
    exact ist_primitive w ptr t h
  | .obj ptr name s, n, c, h => by
    rw [TProg.readProp, valueSaid]
    refine ist_composite w name (r := fun ks => (do
        let _ ← (if ptr then saying w .nonPrim "55" ("read<".toList ++ name ++ ", true>".toList)
          else saying w .nonPrim "35" ("read<".toList ++ name ++ ", is_ptr 0>".toList))
        ⟨.ok (), w.before name⟩
        let v ← classSaid w s ks
        ⟨.ok v, w.after name v⟩)) (fun ls c hc => ?_) h
    refine ist_bind (f := id) (h := fun _ => (⟨.ok (), w.before name⟩ : Told Unit) >>= fun _ => classSaid w s ls >>= fun v => ⟨.ok v, w.after name v⟩)
      (Q := At c) ?_ fun _ _ => ?_
    rotate_left
    · refine ist_bind (f := id) (h := fun _ => classSaid w s ls >>= fun v => ⟨.ok v, w.after name v⟩) (ist_say (w.before name)) fun _ _ => ?_
      exact ist_bind (h := fun v => ⟨.ok v, w.after name v⟩) (ist_readShape w s hc) fun v _ => ist_last _ v
    cases ptr
    · exact ist_note w .nonPrim 35 "35" _ _ (by decide) rfl
    · exact ist_note w .nonPrim 55 "55" _ _ (by decide) rfl
  | .vector name, n, c, h => by
    rw [TProg.readProp, valueSaid]
    refine ist_composite w name (r := fun ks => (do
        saying w .nonPrim "77" "read".toList
        let _ ← listSaid w (nth ks 0)
        let _ ← listSaid w (nth ks 0)
        saying w .vector "122" "ARSE".toList
        Told.silent (.ub "missing return"))) (fun ls c hc => ?_) h
    refine ist_first w .nonPrim 77 "77" _ _ (by decide) rfl ?_
    refine ist_bind (ist_listHere w hc.1) fun _ _ => ?_
    refine ist_bind (ist_listHere w hc.1) fun _ _ => ?_
    refine ist_first w .vector 122 "122" _ _ (by decide) rfl ?_
    intro x _
    exact ⟨rfl, rfl, fun _ h => by cases h⟩

theorem ist_readShape (w : ReadCompiled) : (s : NShape) → {ls : List Node} → {c : Cursor} → Pos ls 0 c →
    IsT (At c) (TProg.readShape w s) id (classSaid w s ls) (Keeps c)
  | .mk ps, ls, c, hc => by
    rw [TProg.readShape, classSaid]
    refine ist_bind (ist_readProps w ps hc) fun vs _ => ?_
    exact ist_pure id _

theorem ist_readProps (w : ReadCompiled) : (ps : List NProp) → {ls : List Node} → {i : Nat} → {c : Cursor} → Pos ls i c →
    IsT (At c) (TProg.readProps w ps) id (propsSaid w ps ls i) (Keeps c)
  | [], ls, i, c, _ => by
    rw [TProg.readProps, propsSaid]
    exact (ist_pure id _).post fun x hx => by cases hx; exact Keeps.refl c
  | p :: ps, ls, i, c, hc => by
    rw [TProg.readProps, propsSaid]
    refine ist_first w .factory 93 "93" _ _ (by decide) rfl ?_
    refine ist_bind (ist_readProp w p hc.1) fun v _ => ?_
    refine ist_bind (ist_readProps w ps hc.next) fun vs _ => ?_
    exact (ist_pure id _).post fun x hx => (Cursor.next_keeps _).trans hx

end

theorem ist_strange (w : ReadCompiled) (key : Nat) {P : Cursor → Prop} : IsT P (strange w key) id
    (if key % 2 ^ 32 = 1 then pure () else saying w .blob "340" ("Strip Key ".toList ++ dec (key % 2 ^ 32) ++ " != 1".toList)) P := by
  unfold strange
  rw [strip_at]
  by_cases h : key % 2 ^ 32 = 1
  · rw [if_neg (by simpa using h), if_pos h]
    exact ist_pure id ()
  · rw [if_pos h, if_neg h]
    exact ist_note w .blob 340 "340" _ _ (by decide) rfl

theorem ist_readyPayload (w : ReadCompiled) {n : Option Node} {c : Cursor} (h : c.cur = n) :
    IsT (At c) (TProg.readyPayload w) (fun _ => nth (kidsOf (nth (kidsOf n) 1)) 0) (payloadSaid w n)
      (fun c' => c'.cur = nth (kidsOf (nth (kidsOf n) 1)) 0) := by
  unfold TProg.readyPayload payloadSaid
  refine ist_first w .blob 329 "329" _ _ (by decide) rfl ?_
  refine ist_bind (ist_quiet (is_described h)) fun _ hd => ?_
  have hn := described_some hd
  have hp := pos_enter (h.trans hn)
  have hp1 := hp.next
  generalize hk : kidsOf n = ks at *
  refine ist_enterFirst (ist_number ?_)
  have hnum : Prog.getUlong c.enter.next.2 = numberIn (nth ks 0) := number_at hp.1
  rw [hnum]
  refine ist_first w .blob 336 "336" _ _ (by decide) rfl ?_
  refine ist_bind (f := id) (ist_strange w _) fun _ _ => ?_
  refine ist_bind (ist_listHere w hp1.1) fun _ hl => ?_
  have hp2 := pos_enter (hp1.1.trans (listSaid_ok hl))
  generalize hk2 : kidsOf (nth ks 1) = ls at *
  refine ist_enterFirst ?_
  refine ist_bind (ist_quiet (is_described hp2.1)) fun _ he => ?_
  have hn3 := described_some he
  have hp3 := pos_enter (hp2.1.trans hn3)
  generalize hk3 : kidsOf (nth ls 0) = es at *
  have hs : IsT (Pos ls 0) (autoEnter (do
      let d ← quiet (Prog.look Cursor.shown)
      let k ← quiet (Prog.look Prog.getUlong)
      note w .blob 348 ("readyPayload::".toList ++ d ++ " ".toList ++ describedToString k))) (fun _ => nth ls 0)
      (saying w .blob "348" ("readyPayload::".toList ++ inBrief (nth es 0) ++ " ".toList ++ elementName (numberIn (nth es 0))) >>= fun _ =>
        pure (nth ls 0)) (Pos ls 0) := by
    refine ist_enter hn3 (Q := fun _ => True) ?_ ?_
    · simp only [erase_bind, erase_quiet, erase_note]
      exact scoped_bind (scoped_look _) fun _ => scoped_bind (scoped_look _) fun _ => scoped_pure ()
    · intro x hx
      have h1 : x.shown = inBrief (nth es 0) := brief_at hx.1
      have h2 : describedToString (Prog.getUlong x) = elementName (numberIn (nth es 0)) := by rw [number_at hx.1, name_at]; rfl
      have key : IsT (At x) (quiet (Prog.look Cursor.shown) >>= fun d => quiet (Prog.look Prog.getUlong) >>= fun k =>
          note w .blob 348 ("readyPayload::".toList ++ d ++ " ".toList ++ describedToString k)) (fun _ => nth ls 0)
          (saying w .blob "348" ("readyPayload::".toList ++ inBrief (nth es 0) ++ " ".toList ++ elementName (numberIn (nth es 0))) >>= fun _ =>
            pure (nth ls 0)) (fun _ => True) := by
        apply ist_look
        apply ist_look
        rw [h1, h2]
        exact ((ist_note w .blob 348 "348" _ _ (by decide) rfl).map fun _ => nth ls 0).post fun _ _ => trivial
      exact key x rfl
  intro x hx
  cases hx
  obtain ⟨h1, h2, h3⟩ := hs _ hp2
  exact ⟨h1, h2, fun a ha => (h3 a ha).1⟩

end Corda.ReadTrace
