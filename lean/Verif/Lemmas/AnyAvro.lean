import Verif.Spec.AnyAvro
import Verif.Lemmas.Avro
import Verif.Lemmas.SchemaUtils
import Verif.Props.SchemaUtils

/-
What the Avro form makes of any name of a type.
-/

namespace Corda
open Prog Spec Props

theorem isArray_elements (s : Str) : isArray s = (fun a => Option.isSome a) <$> elementsOf s := by
  unfold elementsOf
  by_cases hu : s = [] ∨ s = "]".toList ∨ s = "p]".toList
  · rw [if_pos hu]
    rcases hu with rfl | rfl | rfl <;> decide
  · rw [if_neg hu]
    obtain ⟨b, hb, hi⟩ := C08_is_array_partial s hu
    rw [hb]
    by_cases h1 : "[]".toList <:+ s
    · rw [if_pos (List.isSuffixOf_iff_suffix.mpr h1)]
      rw [hi.mpr (.inl h1)]; rfl
    · rw [if_neg (fun h => h1 (List.isSuffixOf_iff_suffix.mp h))]
      by_cases h2 : "[p]".toList <:+ s
      · rw [if_pos (List.isSuffixOf_iff_suffix.mpr h2), hi.mpr (.inr h2)]; rfl
      · rw [if_neg (fun h => h2 (List.isSuffixOf_iff_suffix.mp h))]
        have : b = false := by
          cases b with
          | false => rfl
          | true => exact absurd (hi.mp rfl) (fun h => h.elim h1 h2)
        rw [this]; rfl

/-- The name without the mark of an array. -/
theorem elements_substr {s t : Str} (h : elementsOf s = .ok (some t)) : substr s 0 (findLast '[' s) = .ok t ∧ t.length < s.length := by
  unfold elementsOf at h
  by_cases hu : s = [] ∨ s = "]".toList ∨ s = "p]".toList
  · rw [if_pos hu] at h; cases h
  rw [if_neg hu] at h
  by_cases h1 : "[]".toList.isSuffixOf s
  · rw [if_pos h1] at h
    obtain ⟨a, rfl⟩ := List.isSuffixOf_iff_suffix.mp h1
    cases h
    rw [show "[]".toList = '[' :: [']'] from rfl, findLast_append _ _ _ (by decide)]
    simp [substr]
  rw [if_neg h1] at h
  by_cases h2 : "[p]".toList.isSuffixOf s
  · rw [if_pos h2] at h
    obtain ⟨a, rfl⟩ := List.isSuffixOf_iff_suffix.mp h2
    cases h
    rw [show "[p]".toList = '[' :: ['p', ']'] from rfl, findLast_append _ _ _ (by decide)]
    simp [substr]
  rw [if_neg h2] at h
  cases h

theorem isList_starts (s : Str) : isList s = startsList s := rfl
theorem isMap_starts (s : Str) : isMap s = startsMap s := rfl

theorem isContainer_names (s : Str) : isContainer s = namesContainer s := by
  unfold isContainer namesContainer
  rw [isArray_elements]
  cases elementsOf s <;> rfl

theorem afterOpen_append (a b : Str) (h : '<' ∉ a) : afterOpen (a ++ '<' :: b) = b := by
  unfold afterOpen
  rw [if_pos (by simp), List.dropWhile_append_of_pos]
  · simp
  · intro x hx; simp; rintro rfl; exact h hx

theorem afterOpen_none (a : Str) (h : '<' ∉ a) : afterOpen a = a := by unfold afterOpen; rw [if_neg h]

theorem take_length_sub_one (r : Str) : r.take (r.length - 1) = r.dropLast := List.dropLast_eq_take.symm

/-- The name of the items of any list type. -/
theorem listType_items (s : Str) (hs : s.Small) (hne : s ≠ []) : ∃ a, listType s = .ok (a, itemsOf s) := by
  unfold Str.Small at hs
  have hpos : 0 < s.length := List.length_pos_iff.mpr hne
  unfold itemsOf
  by_cases h : '<' ∈ s
  · obtain ⟨a, b, rfl, ha⟩ := List.eq_append_cons_of_mem h
    simp only [List.length_append, List.length_cons] at hs hpos
    rw [afterOpen_append a b ha, ← unbox_eq_unboxed]
    simp only [listType, substr, Res.bind_eq, findChar_append a b '<' ha]
    rw [if_neg (by omega)]
    have e1 : addW a.length 1 = a.length + 1 := addW_of_lt (by unfold sizeMod; omega)
    have e2 : subW (a ++ '<' :: b).length a.length = b.length + 1 := by
      rw [subW_of_le (by simp) (by unfold sizeMod; simp; omega)]; simp
    rw [e1, e2, if_neg (by simp)]
    refine ⟨unbox ((a ++ '<' :: b).take a.length), ?_⟩
    have hd : (a ++ '<' :: b).drop (a.length + 1) = b := by simp
    simp only [Res.bind, Res.pure_eq, hd, List.drop_zero, Res.ok.injEq, Prod.mk.injEq, true_and]
    cases hb : b with
    | nil => simp
    | cons c cs =>
      rw [subW_of_le (by simp) (by unfold sizeMod; rw [hb] at hs; simp at hs ⊢; omega)]
      have := take_length_sub_one (c :: cs)
      simp only [List.length_cons] at this ⊢
      rw [show cs.length + 1 + 1 - 2 = cs.length + 1 - 1 from by omega, this]
  · rw [afterOpen_none s h, ← unbox_eq_unboxed]
    simp only [listType, substr, Res.bind_eq, findChar_none s '<' h]
    rw [if_neg (by omega)]
    have e1 : addW npos 1 = 0 := by decide
    have e2 : subW s.length npos = s.length + 1 := by unfold subW npos sizeMod; omega
    have e3 : subW (s.length + 1) 2 = s.length - 1 := by
      rw [subW_of_le (by omega) (by unfold sizeMod; omega)]; omega
    rw [e1, e2, e3, if_neg (by omega)]
    refine ⟨unbox (s.take npos), ?_⟩
    simp only [Res.bind, Res.pure_eq, List.drop_zero, take_length_sub_one]

theorem scan_after (n : Int) (s : Str) :
    match afterComma n s with
    | some r => scanComma n s < s.length ∧ s.drop (scanComma n s + 1) = r
    | none => scanComma n s = s.length := by
  induction s generalizing n with
  | nil => rfl
  | cons c cs ih =>
    unfold afterComma scanComma
    by_cases h1 : c = '<'
    · rw [if_pos h1, if_pos h1]
      have := ih (n + 1)
      cases h : afterComma (n + 1) cs with
      | none => rw [h] at this; simp only [List.length_cons] at this ⊢; omega
      | some r =>
        rw [h] at this
        refine ⟨by simp only [List.length_cons]; omega, ?_⟩
        rw [show 1 + scanComma (n + 1) cs + 1 = (scanComma (n + 1) cs + 1) + 1 from by omega, List.drop_succ_cons]
        exact this.2
    rw [if_neg h1, if_neg h1]
    by_cases h2 : c = '>'
    · rw [if_pos h2, if_pos h2]
      have := ih (n - 1)
      cases h : afterComma (n - 1) cs with
      | none => rw [h] at this; simp only [List.length_cons] at this ⊢; omega
      | some r =>
        rw [h] at this
        refine ⟨by simp only [List.length_cons]; omega, ?_⟩
        rw [show 1 + scanComma (n - 1) cs + 1 = (scanComma (n - 1) cs + 1) + 1 from by omega, List.drop_succ_cons]
        exact this.2
    rw [if_neg h2, if_neg h2]
    by_cases h3 : c = ',' ∧ n = 0
    · rw [if_pos h3, if_pos h3]
      exact ⟨by simp, rfl⟩
    rw [if_neg h3, if_neg h3]
    have := ih n
    cases h : afterComma n cs with
    | none => rw [h] at this; simp only [List.length_cons] at this ⊢; omega
    | some r =>
      rw [h] at this
      refine ⟨by simp only [List.length_cons]; omega, ?_⟩
      rw [show 1 + scanComma n cs + 1 = (scanComma n cs + 1) + 1 from by omega, List.drop_succ_cons]
      exact this.2

/-- The last part of taking a map type apart: `l` characters, the comma after `i`. -/
theorem rest_of (s : Str) (i : Nat) (hi : i < s.length) (hs : s.length < 2 ^ 63) :
    substr s (addW i 1) (subW s.length (addW i 2)) = .ok (s.drop (i + 1)).dropLast := by
  have e1 : addW i 1 = i + 1 := addW_of_lt (by unfold sizeMod; omega)
  have e2 : addW i 2 = i + 2 := addW_of_lt (by unfold sizeMod; omega)
  rw [e1, e2]
  unfold substr
  rw [if_neg (by omega)]
  congr 1
  by_cases h : i + 2 ≤ s.length
  · rw [subW_of_le h (by unfold sizeMod; omega), ← take_length_sub_one]
    congr 1
    simp; omega
  · have : s.drop (i + 1) = [] := List.drop_eq_nil_of_le (by omega)
    rw [this]; simp

/-- The name of the values of any map type. -/
theorem mapType_values (s : Str) (hs : s.Small) : (fun v : Str × Str × Str => v.2.2) <$> mapType s = valuesOf s := by
  unfold Str.Small at hs
  unfold valuesOf
  by_cases h : '<' ∈ s
  · obtain ⟨a, b, rfl, ha⟩ := List.eq_append_cons_of_mem h
    have hl : (a ++ '<' :: b).length = a.length + 1 + b.length := by simp; omega
    rw [afterOpen_append a b ha]
    have hd : (a ++ '<' :: b).drop (a.length + 1) = b := by simp
    have e1 : addW a.length 1 = a.length + 1 := addW_of_lt (by unfold sizeMod; omega)
    simp only [mapType, findChar_append a b '<' ha, e1, hd]
    have hsc := scan_after 0 b
    cases hc : afterComma 0 b with
    | none =>
      rw [hc] at hsc
      have hlen : a.length + 1 + scanComma 0 b = (a ++ '<' :: b).length := by rw [hl, hsc]
      have e4 : addW (a ++ '<' :: b).length 1 = (a ++ '<' :: b).length + 1 := addW_of_lt (by unfold sizeMod; omega)
      rw [hlen]
      have t1 : ∀ n, substr (a ++ '<' :: b) 0 n = .ok ((a ++ '<' :: b).take n) := fun n => by simp [substr]
      have t2 : ∀ n, substr (a ++ '<' :: b) (a.length + 1) n = .ok (b.take n) := fun n => by
        unfold substr; rw [if_neg (by omega), hd]
      have t3 : ∀ n, substr (a ++ '<' :: b) (addW (a ++ '<' :: b).length 1) n = .throw "basic_string::substr" := fun n => by
        unfold substr; rw [e4, if_pos (by omega)]
      rw [t1, t2, t3]; rfl
    | some r =>
      rw [hc] at hsc
      have t1 : ∀ n, substr (a ++ '<' :: b) 0 n = .ok ((a ++ '<' :: b).take n) := fun n => by simp [substr]
      have t2 : ∀ n, substr (a ++ '<' :: b) (a.length + 1) n = .ok (b.take n) := fun n => by
        unfold substr; rw [if_neg (by omega), hd]
      have t3 := rest_of (a ++ '<' :: b) (a.length + 1 + scanComma 0 b) (by omega) hs
      have t4 : (a ++ '<' :: b).drop (a.length + 1 + scanComma 0 b + 1) = r := by
        rw [← hsc.2, show a.length + 1 + scanComma 0 b + 1 = (a.length + 1) + (scanComma 0 b + 1) from by omega,
          ← List.drop_drop, hd]
      rw [t4] at t3
      rw [t1, t2, t3]
      show Res.ok (unbox (trimLeft r.dropLast)) = _
      rw [unbox_eq_unboxed]; rfl
  · rw [afterOpen_none s h]
    have e1 : addW npos 1 = 0 := by decide
    simp only [mapType, findChar_none s '<' h, e1, List.drop_zero, Nat.zero_add]
    have hsc := scan_after 0 s
    have t1 : ∀ n, substr s 0 n = .ok (s.take n) := fun n => by simp [substr]
    cases hc : afterComma 0 s with
    | none =>
      rw [hc] at hsc
      simp only at hsc
      have e4 : addW s.length 1 = s.length + 1 := addW_of_lt (by unfold sizeMod; omega)
      have t3 : ∀ n, substr s (addW s.length 1) n = .throw "basic_string::substr" := fun n => by
        unfold substr; rw [e4, if_pos (by omega)]
      rw [hsc, t1, t1, t3]; rfl
    | some r =>
      rw [hc] at hsc
      have t3 := rest_of s (scanComma 0 s) hsc.1 hs
      rw [hsc.2] at t3
      rw [t1, t1, t3]
      show Res.ok (unbox (trimLeft r.dropLast)) = _
      rw [unbox_eq_unboxed]; rfl

theorem star_no_container : namesContainer "*".toList = .ok false := by decide

theorem not_star {t : Str} (h : namesContainer t = .ok true) : t ≠ "*".toList := by
  rintro rfl
  rw [star_no_container] at h
  cases h

theorem nested_type {t req s : Str} (h : namesContainer t = .ok true) (hs : t = s) :
    (if t = "*".toList then req else t) = s := by rw [if_neg (not_star h), hs]

/-- Taking apart any name of a type. -/
theorem infer_shown (fuel : Nat) : ∀ (d k : Nat) (s type req : Str), s.Small → s.length < fuel → s.length < d →
    (if type = "*".toList then req else type) = s → inferGo fuel type req (indent k) = typeShown d k s := by
  induction fuel with
  | zero => intro d k s type req _ h; omega
  | succ fuel ih =>
    intro d k s type req hs hf hd he
    cases d with
    | zero => omega
    | succ d =>
      have nested : ∀ t, t.length < s.length → namesContainer t = .ok true →
          inferGo fuel t req (deeper (indent k)) = typeShown d (k + 1) t := fun t ht hc => by
        rw [indent_deeper]
        exact ih d (k + 1) t t req (hs.of_lt ht) (by omega) (by omega) (nested_type hc rfl)
      conv => lhs; unfold inferGo
      rw [typeShown]
      simp only [he]
      rw [isArray_elements]
      cases ha : elementsOf s with
      | ub m => rfl
      | throw m => rfl
      | ok a =>
        cases a with
        | some t =>
          obtain ⟨h1, h2⟩ := elements_substr ha
          simp only [Res.map_eq, Res.bind_eq, Res.bind, Option.isSome, if_true, h1, isContainer_names]
          cases hc : namesContainer t with
          | ub m => rfl
          | throw m => rfl
          | ok c =>
            cases c with
            | true =>
              simp only [if_true, nested t h2 hc]
              congr 1
              funext x
              simp only [List.append_assoc, lit_array, lit_itemsOpenBlank]
              simp only [lit_close, lit_closeNl]
            | false =>
              simp only [Bool.false_eq_true, if_false, List.append_assoc, lit_array, lit_items]
              simp only [lit_nl]
        | none =>
          simp only [Res.map_eq, Res.bind_eq, Res.bind, Option.isSome, Bool.false_eq_true, if_false, ← isList_starts,
            ← isMap_starts]
          by_cases hl : isList s = true
          · obtain ⟨a, h1⟩ := listType_items s hs (isList_ne_nil hl)
            obtain ⟨a', b', h2, h3⟩ := listType_short s (isList_ne_nil hl) hs
            rw [h1] at h2
            obtain ⟨rfl, rfl⟩ := Prod.mk.inj (Res.ok.inj h2)
            simp only [hl, if_true, h1, isContainer_names]
            cases hc : namesContainer (itemsOf s) with
            | ub m => rfl
            | throw m => rfl
            | ok c =>
              cases c with
              | true =>
                simp only [if_true, nested _ h3 hc]
                congr 1
                funext x
                simp only [List.append_assoc, lit_array, lit_itemsOpen]
                simp only [lit_close]
              | false =>
                simp only [Bool.false_eq_true, if_false, List.append_assoc, lit_array, lit_items]
                simp only [lit_nl]
          · simp only [hl, if_false, Bool.false_eq_true]
            by_cases hm : isMap s = true
            · simp only [hm, if_true]
              have h1 := mapType_values s hs
              rcases mapType_short s hs (isMap_ne_nil hm) with h2 | ⟨a, b, v, h2, -, h3⟩
              · cases h4 : mapType s with
                | ok v => rw [h4] at h2; cases h2
                | throw m => rw [h4] at h1; rw [← h1]; rfl
                | ub m => rw [h4] at h2; cases h2
              · rw [h2] at h1
                rw [← h1, h2]
                simp only [Res.map_eq, Res.bind_eq, Res.bind, isContainer_names]
                cases hc : namesContainer v with
                | ub m => rfl
                | throw m => rfl
                | ok c =>
                  cases c with
                  | true =>
                    simp only [if_true, nested _ h3 hc]
                    congr 1
                    funext x
                    simp only [List.append_assoc, lit_map, lit_valuesOpen]
                    simp only [lit_close]
                  | false =>
                    simp only [Bool.false_eq_true, if_false, List.append_assoc, lit_map, lit_values]
                    simp only [lit_nl]
            · simp only [hm, if_false, Bool.false_eq_true]
              simp only [lit_type, lit_typeEnd', List.append_assoc]

/-- The depth is no restriction. -/
theorem typeShown_depth (d k : Nat) (s : Str) (hs : s.Small) (h : s.length < d) : typeShown d k s = typeShown (s.length + 1) k s := by
  rw [← infer_shown (s.length + 1) d k s s s hs (by omega) h (by simp),
    ← infer_shown (s.length + 1) (s.length + 1) k s s s hs (by omega) (by omega) (by simp)]

/-- The type of a field. -/
theorem inferType_shown (type req : Str) (k : Nat) (hs : (neededType type req).Small) :
    inferType type req (indent k) = typeShown ((neededType type req).length + 1) k (neededType type req) := by
  refine infer_shown _ _ k _ type req hs ?_ (by omega) rfl
  unfold neededType
  split <;> omega

theorem needed_small {type req : Str} (ht : type.Small) (hr : req.Small) : (neededType type req).Small := by
  unfold neededType
  split
  · exact hr
  · exact ht

theorem record_lit (k : Nat) (name desc fields : Str) :
    aOpen ++ nl ++ indent k ++ aRecord ++ nl ++ indent k ++ aName ++ simpleName name ++ aQuoteComma ++ nl
        ++ indent k ++ aNamespace ++ packageName name ++ aQuoteComma ++ nl ++ desc ++ indent k ++ aFields ++ nl ++ fields ++ indent k
        ++ aFieldsEnd ++ nl ++ aClose = recordAround k name desc fields := rfl

theorem field_lit (k : Nat) (name t : Str) :
    indent k ++ aOpen ++ nl ++ indent (k + 1) ++ aName ++ name ++ aNameEnd ++ nl ++ t ++ indent k ++ aClose
      = fieldAround k name t := rfl

theorem fieldLine_lit (n i : Nat) (t : Str) : t ++ (if i < n then aComma else []) ++ nl = fieldLine n i t := rfl

theorem typeLine_lit (n i : Nat) (t : Str) : (if t = [] then [] else t ++ (if i < n then aComma else []) ++ nl) = typeLine n i t :=
  rfl

end Corda
