import Verif.Spec.Choices
import Verif.Props.AnyInspect
import Verif.Props.Readers

/-
C116: the choices of the compiler matter for maps only.
-/

namespace Corda.Props
open Corda Prog Spec

/-! ### Results that are alike -/

private def Alike {α β : Type} (R : α → β → Prop) : Res α → Res β → Prop
  | .ok a, .ok b => R a b
  | .throw _, .throw _ => True
  | .ub _, .ub _ => True
  | _, _ => False

private theorem Alike.bind {α β γ δ : Type} {R : α → β → Prop} {S : γ → δ → Prop} {r : Res α} {r' : Res β} {f : α → Res γ} {g : β → Res δ}
    (h : Alike R r r') (hf : ∀ a b, R a b → Alike S (f a) (g b)) : Alike S (r >>= f) (r' >>= g) := by
  cases r <;> cases r' <;> first | exact hf _ _ h | exact h.elim | trivial

private theorem Alike.refl {α : Type} {R : α → α → Prop} (hR : ∀ a, R a a) (r : Res α) : Alike R r r := by
  cases r <;> first | exact hR _ | trivial

private theorem Alike.result {r r' : Res Str} (h : Alike Eq r r') : SameResult r r' := by
  cases r <;> cases r' <;> first | (exact h.elim) | skip
  · have : _ = _ := h
    subst this
    exact ⟨fun _ => Iff.rfl, Iff.rfl, Iff.rfl⟩
  · exact ⟨fun _ => by simp, by simp [Res.Throws], by simp [Res.IsUB]⟩
  · exact ⟨fun _ => by simp, by simp [Res.Throws], by simp [Res.IsUB]⟩

/-! ### Tables that say the same -/

private def Same (T T' : Table) : Prop := ∀ t, T.lookup t = T'.lookup t

private theorem same_cons {T T' : Table} (h : Same T T') (t : Str) (x : How) : Same ((t, x) :: T) ((t, x) :: T') := by
  intro u
  simp only [List.lookup]
  split
  · rfl
  · exact h u

private theorem alike_primitive {T T' : Table} (h : Same T T') (t : Str) : Alike Same (needPrimitive T t) (needPrimitive T' t) := by
  unfold needPrimitive
  rw [h t]
  cases T'.lookup t with
  | some _ => exact h
  | none =>
    cases primNamed t with
    | none => trivial
    | some p => exact same_cons h t _

private theorem alike_known {T T' : Table} (h : Same T T') (t : Str) (m : String) : Alike Same (needKnown T t m) (needKnown T' t m) := by
  unfold needKnown
  rw [h t]
  cases T'.lookup t with
  | some _ => exact h
  | none => trivial

private theorem alike_field {T T' : Table} (h : Same T T') (self : Str) (f : Field) : Alike Same (needField self T f) (needField self T' f) := by
  unfold needField
  split
  · trivial
  · split
    · exact alike_primitive h _
    · exact alike_known h _ _
    · split
      · exact h
      · exact alike_known h _ _

private theorem alike_fields (self : Str) (fs : List Field) : ∀ {T T' : Table}, Same T T' → Alike Same (needFields self T fs) (needFields self T' fs) := by
  induction fs with
  | nil => intro T T' h; exact h
  | cons f fs ih =>
    intro T T' h
    exact (alike_field h self f).bind fun _ _ h => ih h

private theorem alike_element {T T' : Table} (h : Same T T') (t : Str) : Alike Same (needElement T t) (needElement T' t) := by
  unfold needElement
  split
  · exact alike_primitive h t
  · exact alike_known h t _

/-! ### Keys and values can be learnt in either order -/

/-- What becomes known about an element type. -/
private def news (t : Str) : Option How := if t ∈ primitiveNames then (primNamed t).map How.prim else none

private theorem element_ends (T : Table) (t : Str) :
    (∃ T', needElement T t = .ok T' ∧ (T.lookup t).or (news t) ≠ none ∧ ∀ u, T'.lookup u = (T.lookup u).or (if u = t then news t else none))
    ∨ ((∃ m, needElement T t = .throw m) ∧ (T.lookup t).or (news t) = none) := by
  unfold needElement news needPrimitive needKnown
  cases hl : T.lookup t with
  | some x =>
    left
    refine ⟨T, by split <;> rfl, by simp, fun u => ?_⟩
    by_cases hu : u = t
    · subst hu; rw [hl]; rfl
    · rw [if_neg hu]; simp
  | none =>
    by_cases hp : t ∈ primitiveNames
    · simp only [if_pos hp]
      cases primNamed t with
      | none => right; exact ⟨⟨_, rfl⟩, rfl⟩
      | some p =>
        left
        refine ⟨_, rfl, by simp, fun u => ?_⟩
        by_cases hu : u = t
        · subst hu
          rw [hl]
          simp [List.lookup]
        · have : (u == t) = false := by simpa using hu
          simp [List.lookup, this, hu]
    · simp only [if_neg hp]
      right
      exact ⟨⟨_, rfl⟩, rfl⟩

private theorem alike_entry {T T' : Table} (h : Same T T') (k v : Str) :
    Alike Same (needElement T k >>= fun T1 => needElement T1 v) (needElement T' v >>= fun T1 => needElement T1 k) := by
  have hk : (T.lookup k).or (news k) = (T'.lookup k).or (news k) := by rw [h k]
  have hv : (T.lookup v).or (news v) = (T'.lookup v).or (news v) := by rw [h v]
  rcases element_ends T k with ⟨T1, e1, c1, l1⟩ | ⟨⟨m, e1⟩, c1⟩
  · rw [e1]
    show Alike Same (needElement T1 v) _
    rcases element_ends T' v with ⟨T2, e2, c2, l2⟩ | ⟨⟨m, e2⟩, c2⟩
    · rw [e2]
      show Alike Same (needElement T1 v) (needElement T2 k)
      rcases element_ends T1 v with ⟨T3, e3, c3, l3⟩ | ⟨⟨m, e3⟩, c3⟩
      · rcases element_ends T2 k with ⟨T4, e4, c4, l4⟩ | ⟨⟨m, e4⟩, c4⟩
        · rw [e3, e4]
          intro u
          rw [l3, l4, l1, l2, h u]
          cases T'.lookup u with
          | some x => simp
          | none =>
            by_cases h1 : u = k
            · by_cases h2 : u = v
              · subst h1; subst h2; rfl
              · rw [if_pos h1, if_neg h2]; simp
            · rw [if_neg h1]; simp
        · exfalso
          rw [l2] at c4
          have c4' := Option.or_eq_none_iff.1 c4
          apply c1
          rw [hk, (Option.or_eq_none_iff.1 c4'.1).1, c4'.2]
          rfl
      · exfalso
        rw [l1] at c3
        have c3' := Option.or_eq_none_iff.1 c3
        apply c2
        rw [← hv, (Option.or_eq_none_iff.1 c3'.1).1, c3'.2]
        rfl
    · rw [e2]
      show Alike Same (needElement T1 v) (.throw m)
      rcases element_ends T1 v with ⟨T3, e3, c3, l3⟩ | ⟨⟨m, e3⟩, c3⟩
      · exfalso
        apply c3
        rw [l1]
        rw [← hv] at c2
        have c2' := Option.or_eq_none_iff.1 c2
        rw [c2'.1, c2'.2]
        by_cases hvk : v = k
        · subst hvk; rw [if_pos rfl, c2'.2]; rfl
        · rw [if_neg hvk]; rfl
      · rw [e3]; trivial
  · rw [e1]
    show Alike Same (.throw m) _
    rcases element_ends T' v with ⟨T2, e2, c2, l2⟩ | ⟨⟨m, e2⟩, c2⟩
    · rw [e2]
      show Alike Same (.throw _) (needElement T2 k)
      rcases element_ends T2 k with ⟨T4, e4, c4, l4⟩ | ⟨⟨m, e4⟩, c4⟩
      · exfalso
        apply c4
        rw [l2]
        rw [hk] at c1
        have c1' := Option.or_eq_none_iff.1 c1
        rw [c1'.1, c1'.2]
        by_cases hvk : k = v
        · subst hvk; rw [if_pos rfl, c1'.2]; rfl
        · rw [if_neg hvk]; rfl
      · rw [e4]; trivial
    · rw [e2]; trivial

private theorem alike_learn {T T' : Table} (h : Same T T') (t : TypeNotation) : Alike Same (learn true T t) (learn false T' t) := by
  unfold learn
  rw [h t.name]
  cases T'.lookup t.name with
  | some _ => exact h
  | none =>
    refine Alike.bind (R := Same) ?_ fun a b hab => same_cons hab _ _
    unfold needType
    cases t with
    | comp c => exact alike_fields _ _ h
    | restr r =>
      cases hk : r.kind with
      | enum _ => simp only [hk]; exact h
      | list l => simp only [hk]; exact alike_element h l
      | array l => simp only [hk]; exact alike_element h l
      | map k v =>
        simp only [hk]
        exact alike_entry h k v

private theorem alike_learnAll (ts : List TypeNotation) : ∀ {T T' : Table}, Same T T' → Alike Same (learnAll true T ts) (learnAll false T' ts) := by
  induction ts with
  | nil => intro T T' h; exact h
  | cons t ts ih =>
    intro T T' h
    exact (alike_learn h t).bind fun _ _ h => ih h

/-! ### Texts -/

private theorem noEntries_kid {m k : Node} (h : NoEntries m) (hk : k ∈ m.kids) : NoEntries k := by
  intro x hx
  cases m with
  | mk a ks => exact h x (.deeper a ks k hk hx)

private def Empty (n : Option Node) : Prop := ∀ m, n = some m → NoEntries m

private theorem empty_kids {n : Option Node} (h : Empty n) : ∀ k ∈ kidsOf n, NoEntries k := by
  cases n with
  | none => intro k hk; cases hk
  | some m => exact fun k hk => noEntries_kid (h m rfl) hk

private theorem empty_nth {ks : List Node} (h : ∀ k ∈ ks, NoEntries k) (i : Nat) : Empty (nth ks i) :=
  fun _ hm => h _ (nth_mem hm)

private theorem describedParts_kids {n : Option Node} {ks : List Node} (h : describedParts n = .ok ks) : ks = kidsOf n := by
  unfold describedParts at h
  split at h
  · exact (Res.ok.inj h).symm
  · cases h

private theorem listParts_kids {n : Option Node} {ks : List Node} (h : listParts n = .ok ks) : ks = kidsOf n := by
  unfold listParts at h
  split at h
  · exact (Res.ok.inj h).symm
  · cases h

private theorem body_empty {ts : List TypeNotation} {n b : Option Node} (h : Empty n) (hb : body ts n = .ok b) : Empty b := by
  unfold body at hb
  cases hd : describedParts n with
  | throw m => rw [hd] at hb; cases hb
  | ub m => rw [hd] at hb; cases hb
  | ok ks =>
    rw [hd] at hb
    change (textOf (nth ks 0) >>= fun d => typeWith ts d >>= fun _ => (pure (nth ks 1) : Res (Option Node))) = .ok b at hb
    cases hx : textOf (nth ks 0) with
    | throw m => rw [hx] at hb; cases hb
    | ub m => rw [hx] at hb; cases hb
    | ok d =>
      rw [hx] at hb
      change (typeWith ts d >>= fun _ => (pure (nth ks 1) : Res (Option Node))) = .ok b at hb
      cases ht : typeWith ts d with
      | throw m => rw [ht] at hb; cases hb
      | ub m => rw [ht] at hb; cases hb
      | ok u =>
        rw [ht] at hb
        have : nth ks 1 = b := Res.ok.inj hb
        rw [← this, describedParts_kids hd]
        exact empty_nth (empty_kids h) 1

private theorem bind_congr' {α β : Type} {r : Res α} {f g : α → Res β} (h : ∀ a, r = .ok a → f a = g a) : (r >>= f) = (r >>= g) := by
  cases r with
  | ok a => exact h a rfl
  | throw m => rfl
  | ub m => rfl

private theorem textUnder_congr {x y : Texts} {named : Bool} {ref : Option Str} {n : Option Node} (h : ∀ b t, x b t n = y b t n) :
    textUnder x named ref n = textUnder y named ref n := by
  unfold textUnder
  cases ref with
  | some t => exact h named t
  | none => rfl

private theorem propertyTexts_congr {ts : List TypeNotation} {x y : Texts} {c : Composite} {n : Option Node} (hn : Empty n)
    (h : ∀ b t m, Empty m → x b t m = y b t m) : propertyTexts ts x c n = propertyTexts ts y c n := by
  unfold propertyTexts
  refine bind_congr' fun ks hks => bind_congr' fun d _ => bind_congr' fun u _ => ?_
  cases u with
  | restr r => rfl
  | comp c' =>
    dsimp only
    split
    · refine bind_congr' fun ns hns => ?_
      congr 1
      refine List.map_congr_left fun z _ => ?_
      congr 1
      refine textUnder_congr fun b t => h b t _ ?_
      have hk := empty_kids hn
      rw [← describedParts_kids hks] at hk
      have h1 := empty_kids (empty_nth hk 1)
      rw [← listParts_kids hns] at h1
      exact empty_nth h1 _
    · rfl

private theorem elementTexts_congr {ts : List TypeNotation} {x y : Texts} {l : Option Str} {n : Option Node} (hn : Empty n)
    (h : ∀ b t m, Empty m → x b t m = y b t m) : elementTexts ts x l n = elementTexts ts y l n := by
  unfold elementTexts
  refine bind_congr' fun b hb => ?_
  congr 1
  refine List.map_congr_left fun e he => ?_
  refine textUnder_congr fun b t => h b t _ ?_
  intro m hm
  cases hm
  have hk := empty_kids (body_empty hn hb)
  unfold listElements at he
  split at he
  · exact hk _ he
  · cases he

private theorem entryTexts_empty {lf : Bool} {ts : List TypeNotation} {x : Texts} {k v : Option Str} {n : Option Node} (hn : Empty n) :
    entryTexts lf ts x k v n = (body ts n >>= fun _ => .ok []) := by
  unfold entryTexts
  refine bind_congr' fun b hb => ?_
  have : mapParts b = [] := by
    unfold mapParts
    split
    · rename_i hv
      have := body_empty hn hb
      cases b with
      | none => rfl
      | some m =>
        refine this m rfl m (.here m) ?_
        simpa [valueOf] using hv
    · rfl
  rw [this]
  rfl

private theorem textIn_same (ts : List TypeNotation) {T T' : Table} (h : Same T T') (depth : Nat) : ∀ (named : Bool) (t : Str) (n : Option Node),
    Empty n → textIn true ts T depth named t n = textIn false ts T' depth named t n := by
  induction depth with
  | zero => intros; rfl
  | succ depth ih =>
    intro named t n hn
    unfold textIn
    rw [h t]
    cases T'.lookup t with
    | none => rfl
    | some w =>
      cases w with
      | key => rfl
      | prim p => rfl
      | type u =>
        cases u with
        | comp c =>
          dsimp only
          rw [propertyTexts_congr hn fun b t m hm => ih b t m hm]
        | restr r =>
          dsimp only
          split
          · rfl
          · rw [elementTexts_congr hn fun b t m hm => ih b t m hm]
          · rw [elementTexts_congr hn fun b t m hm => ih b t m hm]
          · rw [entryTexts_empty hn, entryTexts_empty hn]

/-! ### Inspecting -/

/-- **C116, maps without entries.** If no map in the payload of a blob has entries, whatever the blob and its schema, then inspecting it shows
the same text, or throws, or is undefined, in whichever order the compiler evaluates the arguments of a call. -/
theorem C116_no_entries_partial (c : Cursor) (n : Node) (hc : c.cur = some n) (hn : ∀ p, payloadIn n = .ok (some p) → NoEntries p) :
    SameResult (inspect true c).1 (inspect false c).1 := by
  rw [C92_any true c n hc, C92_any false c n hc]
  refine Alike.result ?_
  unfold inspectionOf
  refine Alike.bind (R := Eq) (Alike.refl (fun _ => rfl) _) ?_
  rintro ⟨s, d⟩ _ rfl
  refine (alike_learnAll s.types.flatten (T := onlyKeys) (T' := onlyKeys) fun _ => rfl).bind fun T T' hT => ?_
  split
  · trivial
  · cases hp : payloadIn n with
    | throw m => trivial
    | ub m => trivial
    | ok p =>
      have he : Empty p := fun m hm => hn m (by rw [hp, hm])
      show Alike Eq (textIn true _ T _ _ _ p >>= _) (textIn false _ T' _ _ _ p >>= _)
      rw [textIn_same _ hT _ _ _ _ he]
      exact Alike.refl (fun _ => rfl) _

/-- A list of texts with two elements under a schema that also has a map of texts: either way it is shown. -/
private def besideMap : Node :=
  envelopeTree (valTree (.list "fpL".toList [.str "a".toList, .str "b".toList]))
    (schemaTree [textMap.tree, (TypeDesc.restr "java.util.List<string>".toList "list".toList "fpL".toList).tree]) (.mk .null [])

example : (∀ p, payloadIn besideMap = .ok (some p) → NoEntries p)
    ∧ ∀ b, (inspect b { Cursor.empty with cur := some besideMap }).1 = .ok "{ Parsed : [ \"a\", \"b\" ] }".toList := by
  refine ⟨fun p hp => ?_, by decide +kernel⟩
  have : payloadIn besideMap = .ok (some (valTree (.list "fpL".toList [.str "a".toList, .str "b".toList]))) := rfl
  rw [this] at hp
  cases hp
  intro m hm hv
  have : ∀ m, Inside m (valTree (.list "fpL".toList [.str "a".toList, .str "b".toList])) → m.val ≠ .map := by
    intro m hm
    simp only [valTree, valTrees, described] at hm
    cases hm with
    | here => simp [Node.val]
    | deeper a ks k hk hm =>
      simp only [List.mem_cons, List.not_mem_nil, or_false] at hk
      rcases hk with rfl | rfl
      · cases hm with
        | here => simp [Node.val]
        | deeper a ks k hk hm => cases hk
      · cases hm with
        | here => simp [Node.val]
        | deeper a ks k hk hm =>
          simp only [List.mem_cons, List.not_mem_nil, or_false] at hk
          rcases hk with rfl | rfl <;> cases hm with
          | here => simp [Node.val]
          | deeper a ks k hk hm => cases hk
  exact absurd hv (this m hm)

/-- A map type whose keys and values both cannot be read: either way an exception, but not the same. -/
private def badMap : Cursor :=
  { Cursor.empty with cur := some (envelopeTree (valTree (.map "fpM".toList []))
      (schemaTree [(TypeDesc.restr "java.util.Map<bool, net.None>".toList "map".toList "fpM".toList).tree]) (.mk .null [])) }

example : (inspect true badMap).1 = .throw "THIS IS BAD" ∧ (inspect false badMap).1 = .throw "Missing type in serialisers map" := by
  decide +kernel

/-! ### No map types -/

private def Mapless (T : Table) : Prop := ∀ t r k v, T.lookup t = some (.type (.restr r)) → r.kind ≠ .map k v

private theorem mapless_cons {T : Table} (h : Mapless T) (t : Str) (x : How) (hx : ∀ r k v, x = .type (.restr r) → r.kind ≠ .map k v) :
    Mapless ((t, x) :: T) := by
  intro u r k v hl
  simp only [List.lookup] at hl
  split at hl
  · exact hx r k v (Option.some.inj hl)
  · exact h u r k v hl

private theorem mapless_primitive {T T' : Table} {t : Str} (h : Mapless T) (e : needPrimitive T t = .ok T') : Mapless T' := by
  unfold needPrimitive at e
  split at e
  · cases e; exact h
  · split at e
    · cases e; exact mapless_cons h _ _ (by intro r k v hx; cases hx)
    · cases e

private theorem mapless_known {T T' : Table} {t : Str} {m : String} (h : Mapless T) (e : needKnown T t m = .ok T') : Mapless T' := by
  unfold needKnown at e
  split at e
  · cases e; exact h
  · cases e

private theorem mapless_field {T T' : Table} {self : Str} {f : Field} (h : Mapless T) (e : needField self T f = .ok T') : Mapless T' := by
  unfold needField at e
  split at e
  · cases e
  · split at e
    · exact mapless_primitive h e
    · exact mapless_known h e
    · split at e
      · cases e; exact h
      · exact mapless_known h e

private theorem mapless_fields (self : Str) (fs : List Field) : ∀ {T T' : Table}, Mapless T → needFields self T fs = .ok T' → Mapless T' := by
  induction fs with
  | nil => intro T T' h e; cases e; exact h
  | cons f fs ih =>
    intro T T' h e
    rw [needFields] at e
    cases hf : needField self T f with
    | ok U => rw [hf] at e; exact ih (mapless_field h hf) e
    | throw m => rw [hf] at e; cases e
    | ub m => rw [hf] at e; cases e

private theorem mapless_element {T T' : Table} {t : Str} (h : Mapless T) (e : needElement T t = .ok T') : Mapless T' := by
  unfold needElement at e
  split at e
  · exact mapless_primitive h e
  · exact mapless_known h e

private theorem learn_mapless {T : Table} (h : Mapless T) (t : TypeNotation) (ht : ∀ r k v, t = .restr r → r.kind ≠ .map k v) :
    learn true T t = learn false T t ∧ ∀ T', learn false T t = .ok T' → Mapless T' := by
  have hn : needType true T t = needType false T t ∧ ∀ T', needType false T t = .ok T' → Mapless T' := by
    unfold needType
    cases t with
    | comp c => exact ⟨rfl, fun T' e => mapless_fields _ _ h e⟩
    | restr r =>
      cases hk : r.kind with
      | enum _ => simp only [hk]; exact ⟨trivial, fun T' e => by cases e; exact h⟩
      | list l => simp only [hk]; exact ⟨trivial, fun T' e => mapless_element h e⟩
      | array l => simp only [hk]; exact ⟨trivial, fun T' e => mapless_element h e⟩
      | map k v => exact absurd hk (ht r k v rfl)
  unfold learn
  rw [hn.1]
  refine ⟨rfl, fun T' e => ?_⟩
  split at e
  · cases e; exact h
  · cases hT : needType false T t with
    | throw m => rw [hT] at e; cases e
    | ub m => rw [hT] at e; cases e
    | ok U =>
      rw [hT] at e
      cases e
      exact mapless_cons (hn.2 U hT) _ _ (by intro r k v hx; cases hx; exact ht r k v rfl)

private theorem learnAll_mapless (ts : List TypeNotation) : NoMapTypes ts → ∀ {T : Table}, Mapless T →
    learnAll true T ts = learnAll false T ts ∧ ∀ T', learnAll false T ts = .ok T' → Mapless T' := by
  induction ts with
  | nil => intro _ T h; exact ⟨rfl, fun T' e => by cases e; exact h⟩
  | cons t ts ih =>
    intro hts T h
    have h1 := learn_mapless h t fun r k v e => hts r k v (by rw [e]; exact List.mem_cons_self)
    have hts' : NoMapTypes ts := fun r k v hm => hts r k v (List.mem_cons_of_mem _ hm)
    rw [learnAll, learnAll, h1.1]
    cases hl : learn false T t with
    | throw m => exact ⟨rfl, fun T' e => by cases e⟩
    | ub m => exact ⟨rfl, fun T' e => by cases e⟩
    | ok U => exact ih hts' (h1.2 U hl)

private theorem textIn_mapless (ts : List TypeNotation) {T : Table} (h : Mapless T) (depth : Nat) : textIn true ts T depth = textIn false ts T depth := by
  induction depth with
  | zero => rfl
  | succ depth ih =>
    funext named t n
    unfold textIn
    rw [ih]
    cases hT : T.lookup t with
    | none => rfl
    | some w =>
      cases w with
      | key => rfl
      | prim p => rfl
      | type u =>
        cases u with
        | comp c => rfl
        | restr r =>
          cases hk : r.kind with
          | map k v => exact absurd hk (h t r k v hT)
          | _ => simp only [hk]

/-- **C116, no map types.** If none of the types of the schema of a blob is a map, inspecting the blob ends in exactly the same way, with the
same text or the same exception, in whichever order the compiler evaluates the arguments of a call, whatever the payload. -/
theorem C116_no_maps_partial (c : Cursor) (n : Node) (hc : c.cur = some n)
    (hn : ∀ s d, envelopeFrom n = .ok (s, d) → NoMapTypes s.types.flatten) : inspect true c = inspect false c := by
  rw [C92_any true c n hc, C92_any false c n hc]
  congr 1
  unfold inspectionOf
  refine bind_congr' fun x hx => ?_
  obtain ⟨s, d⟩ := x
  have h0 : Mapless onlyKeys := by
    intro t r k v hl
    simp only [onlyKeys, List.lookup] at hl
    split at hl <;> cases hl
  have h := learnAll_mapless _ (hn s d hx) h0
  dsimp only
  rw [h.1]
  refine bind_congr' fun T hT => ?_
  split
  · rfl
  · simp only [textIn_mapless _ (h.2 T hT)]

/-- Without map types even a payload that has a map in it, which no type is for, is the same either way. -/
private def strayMap : Node :=
  envelopeTree (described "fpL".toList (.mk .list [.mk .map [.mk (.int 1) [], .mk (.int 2) []]]))
    (schemaTree [(TypeDesc.restr "java.util.List<int>".toList "list".toList "fpL".toList).tree]) (.mk .null [])

example : (∀ s d, envelopeFrom strayMap = .ok (s, d) → NoMapTypes s.types.flatten)
    ∧ ∀ b, (inspect b { Cursor.empty with cur := some strayMap }).1 = .ok "{ Parsed : [ 0 ] }".toList := by
  refine ⟨fun s d h => ?_, by decide +kernel⟩
  have h1 : (match envelopeFrom strayMap with
      | .ok (s, _) => s.types.flatten.all fun t => match t with
        | .restr r => match r.kind with
          | .map _ _ => false
          | _ => true
        | _ => true
      | _ => false) = true := by decide +kernel
  rw [h] at h1
  intro r k v hr hk
  have := List.all_eq_true.1 h1 _ hr
  simp only [hk] at this
  cases this

/-- **C116 is violated** for a map with one entry: the two orders show different things. -/
theorem C116_violated : ¬ ∀ c : Cursor, SameResult (inspect true c).1 (inspect false c).1 := by
  intro h
  have h1 := (h textMapBlob).text "{ Parsed : { \"key\" : \"value\" } }".toList
  rw [C40_maps_violated.1, C40_maps_violated.2] at h1
  exact absurd (h1.1 rfl) (by decide +kernel)

end Corda.Props

#print axioms Corda.Props.C116_no_entries_partial
#print axioms Corda.Props.C116_no_maps_partial
#print axioms Corda.Props.C116_violated
