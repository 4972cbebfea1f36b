import Verif.Lemmas.DumpEval
import Verif.Lemmas.SchemaUtils
import Verif.Spec.Avro
import Verif.Props.SchemaUtils
import Verif.Props.Descriptors

/-
The Avro form of a schema, evaluated.
-/

namespace Corda
open Prog Spec Props

/-! ### The type of a field -/

/-- A name without brackets and commas is a leaf, if it does not look like a container. -/
theorem leaf_ok {n : Str} (h : (n.all fun c => c != '<' && c != '>' && c != ',') = true) (hc : ¬ ContainerName n)
    (h1 : n.head? ≠ some ' ') (h2 : n ≠ []) (h3 : n ≠ "]".toList) (h4 : n ≠ "p]".toList) : (AvroShape.leaf n).Ok := by
  refine ⟨⟨⟨?_, h1⟩, fun h => hc (.inr (.inl h)), fun h => hc (.inr (.inr h))⟩, fun h => hc (.inl h), h2, h3, h4⟩
  clear h1 h2 h3 h4 hc
  induction n with
  | nil => exact .nil _
  | cons c n ih =>
    simp at h
    exact .chr _ _ _ h.1.1.1 h.1.1.2 h.1.2 (ih (by simpa using h.2))

theorem shape_list_render (t : AvroShape) : (AvroShape.list t).render = "java.util.List".toList ++ '<' :: (t.render ++ ['>']) := by
  conv => lhs; unfold AvroShape.render
  rw [show Spec.listOpen = "java.util.List".toList ++ ['<'] from by decide, List.append_assoc]
  rfl

theorem shape_map_render (b : Nat) (k v : AvroShape) : (AvroShape.map b k v).render
    = "java.util.Map".toList ++ '<' :: (([] : Str) ++ k.render ++ ',' :: (List.replicate b ' ' ++ v.render ++ ['>'])) := by
  conv => lhs; unfold AvroShape.render
  rw [show Spec.mapOpen = "java.util.Map".toList ++ ['<'] from by decide, List.append_assoc]
  rfl

theorem shape_typeName (t : AvroShape) (h : t.Ok) : TypeName t.render := by
  induction t with
  | leaf n => exact h.1.1
  | array p t ih =>
    obtain ⟨h1, h2⟩ := ih h
    have hne : ∀ s : Str, s ≠ [] → (∀ c ∈ s, c ≠ '<' ∧ c ≠ '>' ∧ c ≠ ',' ∧ c ≠ ' ') → TypeName (t.render ++ s) := by
      intro s hs hc
      refine ⟨wf_append h1 (wf_plain _ fun c hx => ⟨(hc c hx).1, (hc c hx).2.1, (hc c hx).2.2.1⟩), ?_⟩
      cases ht : t.render with
      | nil =>
        cases s with
        | nil => exact absurd rfl hs
        | cons c s => simpa using (hc c (by simp)).2.2.2
      | cons c s => rw [ht] at h2; simpa using h2
    exact hne (arrayMark p) (by cases p <;> decide) (by cases p <;> decide)
  | list t ih =>
    rw [shape_list_render]
    refine ⟨wf_append (wf_plain _ (by decide)) ?_, by simp⟩
    simpa using WF.brackets false _ [] (wf_inside (ih h).1) (.nil _)
  | map b k v ih1 ih2 =>
    rw [shape_map_render]
    refine ⟨wf_append (wf_plain _ (by decide)) ?_, by simp⟩
    have hsp : WF true (List.replicate b ' ') :=
      wf_plain _ (by intro c hc; rw [List.eq_of_mem_replicate hc]; decide)
    have := WF.brackets false (k.render ++ ',' :: (List.replicate b ' ' ++ v.render)) []
      (wf_append (wf_inside (ih1 h.1).1) (.comma _ (wf_append hsp (wf_inside (ih2 h.2).1)))) (.nil _)
    simpa using this

def Spec.AvroShape.isArr : AvroShape → Bool
  | .array _ _ => true
  | _ => false

theorem suffix_last {p s : Str} (h : p <:+ s) (hp : p ≠ []) : s.getLast? = p.getLast? := by
  obtain ⟨a, rfl⟩ := h
  rw [List.getLast?_append]
  cases hl : p.getLast? with
  | none => exact absurd (List.getLast?_eq_none_iff.mp hl) hp
  | some c => rfl

theorem arraySuffix_last {s : Str} (h : HasArraySuffix s) : s.getLast? = some ']' := by
  rcases h with h | h
  · rw [suffix_last h (by decide)]; decide
  · rw [suffix_last h (by decide)]; decide

theorem shape_array (t : AvroShape) (h : t.Ok) : isArray t.render = .ok (AvroShape.isArr t) := by
  have hl : ∀ s : Str, s.getLast? = some '>' → isArray s = .ok false := by
    intro s hs
    obtain ⟨b, hb, hi⟩ := C08_is_array_partial s (by
      rintro (rfl | rfl | rfl) <;> revert hs <;> decide)
    rw [hb]
    cases b with
    | false => rfl
    | true => have := arraySuffix_last (hi.mp rfl); rw [hs] at this; simp at this
  have ha : ∀ s p : Str, p = "[]".toList ∨ p = "[p]".toList → isArray (s ++ p) = .ok true := by
    intro s p hp
    have hsuf : HasArraySuffix (s ++ p) := by
      rcases hp with rfl | rfl
      · exact .inl (List.suffix_append _ _)
      · exact .inr (List.suffix_append _ _)
    have hlen : 2 ≤ (s ++ p).length := by rcases hp with rfl | rfl <;> simp
    obtain ⟨b, hb, hi⟩ := C08_is_array_partial (s ++ p) (by
      rintro (e | e | e)
      · rw [e] at hlen; simp at hlen
      · rw [e] at hlen; simp at hlen
      · rw [e] at hsuf; revert hsuf; unfold HasArraySuffix; decide)
    rw [hb, hi.mpr hsuf]
  cases t with
  | leaf n =>
    obtain ⟨b, hb, hi⟩ := C08_is_array_partial n (by
      rintro (e | e | e)
      · exact h.2.2.1 e
      · exact h.2.2.2.1 e
      · exact h.2.2.2.2 e)
    show isArray n = _
    rw [hb]
    cases b with
    | false => rfl
    | true => exact absurd (hi.mp rfl) h.2.1
  | array p t =>
    exact ha _ (arrayMark p) (by cases p <;> decide)
  | list t => exact hl _ (by rw [shape_list_render, List.getLast?_append, List.getLast?_cons]; simp)
  | map b k v => exact hl _ (by rw [shape_map_render, show ∀ a b d e : Str, a ++ '<' :: (b ++ ',' :: (d ++ e ++ ['>'])) = (a ++ '<' :: (b ++ ',' :: (d ++ e))) ++ ['>'] by
      intro a b d e; simp, List.getLast?_concat])

theorem shape_leaf_list (n : Str) (h : (AvroShape.leaf n).Ok) : isList n = false ∧ isMap n = false := by
  refine ⟨?_, ?_⟩
  · rw [← Bool.not_eq_true, isList_iff]; exact h.1.2.1
  · rw [← Bool.not_eq_true, isMap_iff]; exact h.1.2.2

theorem shape_container (t : AvroShape) (h : t.Ok) : isContainer t.render = .ok (!t.isLeaf) := by
  unfold isContainer
  rw [shape_array t h]
  cases t with
  | leaf n =>
    obtain ⟨h1, h2⟩ := shape_leaf_list n h
    simp [AvroShape.render, h1, h2, AvroShape.isArr, AvroShape.isLeaf]
  | array p t => simp [AvroShape.isArr, AvroShape.isLeaf]
  | list t =>
    have : isList (AvroShape.list t).render = true := by rw [isList_iff, shape_list_render]; exact List.prefix_append _ _
    simp [this, AvroShape.isArr, AvroShape.isLeaf]
  | map b k v =>
    have : isMap (AvroShape.map b k v).render = true := by rw [isMap_iff, shape_map_render]; exact List.prefix_append _ _
    simp [this, AvroShape.isArr, AvroShape.isLeaf]

/-- Replacing boxed types leaves containers alone. -/
theorem shape_unboxed (t : AvroShape) (h : t.isLeaf = false) : unboxed t.render = t.render := by
  cases t with
  | leaf n => simp [AvroShape.isLeaf] at h
  | array p t =>
    have hs : HasArraySuffix (AvroShape.array p t).render := by
      cases p
      · exact .inl (List.suffix_append t.render (arrayMark false))
      · exact .inr (List.suffix_append t.render (arrayMark true))
    rcases unboxed_cases (AvroShape.array p t).render with ⟨q, hq, he, -⟩ | ⟨-, h'⟩
    · rw [← he] at hs
      have h1 := arraySuffix_last hs
      have : ∀ q ∈ boxed, q.1.toList.getLast? ≠ some ']' := by decide
      exact absurd h1 (this q hq)
    · exact h'
  | list t =>
    apply unboxed_of_prefix "java.util".toList
    · rw [shape_list_render]; exact List.IsPrefix.trans (by decide) (List.prefix_append "java.util.List".toList _)
    · decide
  | map b k v =>
    apply unboxed_of_prefix "java.util".toList
    · rw [shape_map_render]; exact List.IsPrefix.trans (by decide) (List.prefix_append "java.util.Map".toList _)
    · decide

/-- A name stays one when boxed types are replaced. -/
theorem leaf_unboxed (n : Str) (h : (AvroShape.leaf n).Ok) : (AvroShape.leaf (unboxed n)).Ok := by
  rcases unboxed_cases n with ⟨p, hp, -, h'⟩ | ⟨-, h'⟩ <;> rw [h']
  · clear h h'
    have : ∀ p ∈ boxed, (∀ c ∈ p.2.toList, c ≠ '<' ∧ c ≠ '>' ∧ c ≠ ',') ∧ p.2.toList.head? ≠ some ' '
        ∧ ¬ ("java.util.List".toList <+: p.2.toList) ∧ ¬ ("java.util.Map".toList <+: p.2.toList)
        ∧ ¬ ("[]".toList <:+ p.2.toList ∨ "[p]".toList <:+ p.2.toList) ∧ p.2.toList ≠ [] ∧ p.2.toList ≠ "]".toList
        ∧ p.2.toList ≠ "p]".toList := by decide
    obtain ⟨a, b, c, d, e, f, g, i⟩ := this p hp
    exact ⟨⟨⟨wf_plain _ a, b⟩, c, d⟩, e, f, g, i⟩
  · exact h

theorem findLast_append (a b : Str) (c : Char) (h : c ∉ b) : findLast c (a ++ c :: b) = a.length := by
  unfold findLast
  have : (a ++ c :: b).contains c = true := by simp
  rw [if_pos this, List.reverse_append, List.reverse_cons, List.append_assoc, List.takeWhile_append_of_pos]
  · simp
  · intro x hx
    simp only [bne_iff_ne, ne_eq]
    rintro rfl
    exact h (List.mem_reverse.mp hx)

theorem findLast_none (a : Str) (c : Char) (h : c ∉ a) : findLast c a = npos := by
  unfold findLast
  rw [if_neg]; simpa using h

theorem shape_nonempty (t : AvroShape) (h : t.Ok) : t.render ≠ [] := by
  cases t with
  | leaf n => exact h.2.2.1
  | array p t =>
    have : arrayMark p ≠ [] := by cases p <;> decide
    simp [AvroShape.render, this]
  | list t => rw [shape_list_render]; simp
  | map b k v => rw [shape_map_render]; simp

theorem indent_deeper (k : Nat) : deeper (indent k) = indent (k + 1) := deeper_ind k

theorem text_array_container (k : Nat) (p : Bool) (t : AvroShape) (h : t.isLeaf = false) : (AvroShape.array p t).text k
    = indent k ++ tArray ++ indent k ++ tItems ++ ['{', ' ', '\n'] ++ t.text (k + 1) ++ indent k ++ ['}', '\n'] := by
  cases t <;> first | (simp [AvroShape.isLeaf] at h; done) | rfl

theorem text_list_container (k : Nat) (t : AvroShape) (h : t.isLeaf = false) : (AvroShape.list t).text k
    = indent k ++ tArray ++ indent k ++ tItems ++ ['{'] ++ t.text (k + 1) ++ indent k ++ ['}'] := by
  cases t <;> first | (simp [AvroShape.isLeaf] at h; done) | rfl

theorem text_map_container (k b : Nat) (t u : AvroShape) (h : t.isLeaf = false) : (AvroShape.map b u t).text k
    = indent k ++ tMap ++ indent k ++ tValuesNested ++ t.text (k + 1) ++ indent k ++ ['}'] := by
  cases t <;> first | (simp [AvroShape.isLeaf] at h; done) | rfl

theorem container_not_star (t : AvroShape) (h : t.isLeaf = false) (ho : t.Ok) : t.render ≠ "*".toList := by
  intro e
  have h1 := shape_container t ho
  rw [e, h] at h1
  revert h1
  decide

theorem lit_type : aType = tType := by decide
theorem lit_typeEnd (x : Str) : dQuote ++ (nl ++ x) = tTypeEnd ++ x := by
  rw [← List.append_assoc, show dQuote ++ nl = tTypeEnd from by decide]
theorem lit_typeEnd' : dQuote ++ nl = tTypeEnd := by decide
theorem lit_array (x : Str) : aTypeArray ++ (nl ++ x) = tArray ++ x := by
  rw [← List.append_assoc, show aTypeArray ++ nl = tArray from by decide]
theorem lit_map (x : Str) : aTypeMap ++ (nl ++ x) = tMap ++ x := by
  rw [← List.append_assoc, show aTypeMap ++ nl = tMap from by decide]
theorem lit_items : aItems = tItems := by decide
theorem lit_itemsOpen (x : Str) : aItemsOpen ++ x = tItems ++ (['{'] ++ x) := by
  rw [← List.append_assoc, show tItems ++ ['{'] = aItemsOpen from by decide]
theorem lit_itemsOpenBlank (x : Str) : aItemsOpenBlank ++ (nl ++ x) = tItems ++ (['{', ' ', '\n'] ++ x) := by
  rw [← List.append_assoc, ← List.append_assoc, show tItems ++ ['{', ' ', '\n'] = aItemsOpenBlank ++ nl from by decide]
theorem lit_values : aValues = tValues := by decide
theorem lit_valuesOpen : aValuesOpen = tValuesNested := by decide
theorem lit_close : aClose = ['}'] := by decide
theorem lit_nl : nl = ['\n'] := by decide
theorem lit_closeNl : ['}'] ++ nl = ['}', '\n'] := by decide

section
variable {fuel : Nat} {type req s t ai : Str} (he : (if type = "*".toList then req else type) = s)
include he

theorem infer_name (ha : isArray s = .ok false) (hl : isList s = false) (hm : isMap s = false) :
    inferGo (fuel + 1) type req ai = .ok (ai ++ aType ++ s ++ dQuote ++ nl) := by
  unfold inferGo
  simp only [he, ha, hl, hm, Res.bind_eq, Res.bind, Bool.false_eq_true, if_false, Res.pure_eq]

theorem infer_array (ha : isArray s = .ok true) (ht : substr s 0 (findLast '[' s) = .ok t) (c : Bool)
    (hc : isContainer t = .ok c) :
    inferGo (fuel + 1) type req ai = if c then (inferGo fuel t req (deeper ai)).bind fun x =>
        .ok (ai ++ aTypeArray ++ nl ++ ai ++ aItemsOpenBlank ++ nl ++ x ++ ai ++ aClose ++ nl)
      else .ok (ai ++ aTypeArray ++ nl ++ ai ++ aItems ++ t ++ nl) := by
  conv => lhs; unfold inferGo
  simp only [he, ha, ht, hc, Res.bind_eq, Res.bind, if_true, Res.pure_eq]

theorem infer_list (ha : isArray s = .ok false) (hl : isList s = true) (a : Str) (ht : listType s = .ok (a, t)) (c : Bool)
    (hc : isContainer t = .ok c) :
    inferGo (fuel + 1) type req ai = if c then (inferGo fuel t req (deeper ai)).bind fun x =>
        .ok (ai ++ aTypeArray ++ nl ++ ai ++ aItemsOpen ++ x ++ ai ++ aClose)
      else .ok (ai ++ aTypeArray ++ nl ++ ai ++ aItems ++ t ++ nl) := by
  conv => lhs; unfold inferGo
  simp only [he, ha, hl, ht, hc, Res.bind_eq, Res.bind, Bool.false_eq_true, if_false, if_true, Res.pure_eq]

theorem infer_map (ha : isArray s = .ok false) (hl : isList s = false) (hm : isMap s = true) (a b : Str)
    (ht : mapType s = .ok (a, b, t)) (c : Bool) (hc : isContainer t = .ok c) :
    inferGo (fuel + 1) type req ai = if c then (inferGo fuel t req (deeper ai)).bind fun x =>
        .ok (ai ++ aTypeMap ++ nl ++ ai ++ aValuesOpen ++ x ++ ai ++ aClose)
      else .ok (ai ++ aTypeMap ++ nl ++ ai ++ aValues ++ t ++ nl) := by
  conv => lhs; unfold inferGo
  simp only [he, ha, hl, hm, ht, hc, Res.bind_eq, Res.bind, Bool.false_eq_true, if_false, if_true, Res.pure_eq]

end

theorem array_elem (p : Bool) (t : AvroShape) :
    substr (AvroShape.array p t).render 0 (findLast '[' (AvroShape.array p t).render) = .ok t.render := by
  have : ∃ b : Str, '[' ∉ b ∧ arrayMark p = '[' :: b := by
    cases p
    · exact ⟨"]".toList, by decide, by decide⟩
    · exact ⟨"p]".toList, by decide, by decide⟩
  obtain ⟨b, hb, e⟩ := this
  rw [show (AvroShape.array p t).render = t.render ++ '[' :: b by rw [AvroShape.render, e], findLast_append _ _ _ hb]
  unfold substr
  rw [if_neg (by omega)]
  simp

/-- What is written about a type. -/
theorem infer_shape (t : AvroShape) (ho : t.Ok) (hs : t.render.Small) (fuel k : Nat) (hf : t.render.length < fuel) (type req : Str)
    (he : (if type = "*".toList then req else type) = t.render) : inferGo fuel type req (indent k) = .ok (t.text k) := by
  induction t generalizing fuel k type with
  | leaf n =>
    obtain ⟨h1, h2⟩ := shape_leaf_list n ho
    cases fuel with
    | zero => omega
    | succ fuel =>
      rw [infer_name he (shape_array _ ho) h1 h2]
      simp only [AvroShape.render, AvroShape.text, lit_type, lit_typeEnd', List.append_assoc]
  | array p t ih =>
    cases fuel with
    | zero => omega
    | succ fuel =>
      have hlen : t.render.length < (AvroShape.array p t).render.length := by
        have : 0 < (arrayMark p).length := by cases p <;> decide
        simp only [AvroShape.render, List.length_append]; omega
      rw [infer_array he (shape_array _ ho) (array_elem p t) _ (shape_container t ho)]
      cases hl : t.isLeaf with
      | true =>
        cases t with
        | leaf n =>
          simp only [Bool.not_true, Bool.false_eq_true, if_false, AvroShape.text, AvroShape.render, List.append_assoc,
            lit_array, lit_items]
          rw [lit_nl]
        | _ => simp [AvroShape.isLeaf] at hl
      | false =>
        rw [if_pos (by decide), indent_deeper,
          ih ho (hs.of_lt hlen) fuel (k + 1) (by omega) t.render (by rw [if_neg (container_not_star t hl ho)]),
          text_array_container k p t hl]
        simp only [Res.bind, List.append_assoc, lit_array, lit_itemsOpenBlank, lit_closeNl, lit_close]
  | list t ih =>
    cases fuel with
    | zero => omega
    | succ fuel =>
      have hl : isList (AvroShape.list t).render = true := by rw [isList_iff, shape_list_render]; exact List.prefix_append _ _
      have e := listType_eq "java.util.List".toList t.render (by decide) (by rw [← shape_list_render]; exact hs)
      rw [← shape_list_render, unbox_eq_unboxed t.render] at e
      have hlen : t.render.length < (AvroShape.list t).render.length := by rw [shape_list_render]; simp; omega
      cases hlf : t.isLeaf with
      | true =>
        cases t with
        | leaf n =>
          rw [infer_list he (shape_array _ ho) hl _ e _ (shape_container (.leaf (unboxed n)) (leaf_unboxed n ho))]
          simp only [AvroShape.isLeaf, Bool.not_true, Bool.false_eq_true, if_false, AvroShape.text, List.append_assoc,
            lit_array, lit_items, AvroShape.render]
          rw [lit_nl]
        | _ => simp [AvroShape.isLeaf] at hlf
      | false =>
        rw [shape_unboxed t hlf] at e
        rw [infer_list he (shape_array _ ho) hl _ e _ (shape_container t ho), hlf, if_pos (by decide), indent_deeper,
          ih ho (hs.of_lt hlen) fuel (k + 1) (by omega) t.render (by rw [if_neg (container_not_star t hlf ho)]),
          text_list_container k t hlf]
        simp only [Res.bind, List.append_assoc, lit_array, lit_itemsOpen, lit_close]
  | map b u t _ ih =>
    cases fuel with
    | zero => omega
    | succ fuel =>
      have hl : isList (AvroShape.map b u t).render = false := by rw [shape_map_render]; rfl
      have hm : isMap (AvroShape.map b u t).render = true := by rw [isMap_iff, shape_map_render]; exact List.prefix_append _ _
      have e := mapType_eq "java.util.Map".toList u.render t.render [] (List.replicate b ' ') (by decide) (by simp)
        (by intro c hc; exact List.eq_of_mem_replicate hc) (shape_typeName u ho.1) (shape_typeName t ho.2).2
        (by rw [← shape_map_render]; exact hs)
      rw [← shape_map_render, unbox_eq_unboxed t.render] at e
      have hlen : t.render.length < (AvroShape.map b u t).render.length := by rw [shape_map_render]; simp; omega
      cases hlf : t.isLeaf with
      | true =>
        cases t with
        | leaf n =>
          rw [infer_map he (shape_array _ ho) hl hm _ _ e _ (shape_container (.leaf (unboxed n)) (leaf_unboxed n ho.2))]
          simp only [AvroShape.isLeaf, Bool.not_true, Bool.false_eq_true, if_false, AvroShape.text, List.append_assoc,
            lit_map, lit_values, AvroShape.render]
          rw [lit_nl]
        | _ => simp [AvroShape.isLeaf] at hlf
      | false =>
        rw [shape_unboxed t hlf] at e
        rw [infer_map he (shape_array _ ho) hl hm _ _ e _ (shape_container t ho.2), hlf, if_pos (by decide), indent_deeper,
          ih ho.2 (hs.of_lt hlen) fuel (k + 1) (by omega) t.render (by rw [if_neg (container_not_star t hlf ho.2)]),
          text_map_container k b t u hlf]
        simp only [Res.bind, List.append_assoc, lit_map, lit_valuesOpen, lit_close]

/-! ### The elements -/

theorem avro_element (fuel : Nat) (ai : Str) (k : Nat) (parts : List Node) :
    avroNode (fuel + 1) ai (element k parts)
      = (avroFor (avroBase fuel) (cordaId k) ai ⟨[.mk (.ulong (cordaId k)) []], some (.mk .list parts), [], []⟩).1 := by
  have hs := scoped_avroBody (scopedOn_avroBase fuel) ai
  unfold avroNode
  rw [avroBase, autoEnter_eq hs rfl]
  have h2 : (if false = true then (Cursor.root (element k parts)).enter.next.2.next.2
      else (Cursor.root (element k parts)).enter.next.2)
      = Cursor.under ⟨[], some (.mk (.ulong (cordaId k)) []), [.mk .list parts], []⟩ [([], .described, [])] := rfl
  simp only [h2, (hs _).2]
  unfold avroBody
  rw [bind_of_ok (show look Cursor.type ⟨[], some (.mk (.ulong (cordaId k)) []), [.mk .list parts], []⟩
    = (.ok .ulong, ⟨[], some (.mk (.ulong (cordaId k)) []), [.mk .list parts], []⟩) from rfl)]
  simp only [if_true]
  rw [bind_of_ok (show readUint64 ⟨[], some (.mk (.ulong (cordaId k)) []), [.mk .list parts], []⟩
    = (.ok (cordaId k), ⟨[.mk (.ulong (cordaId k)) []], some (.mk .list parts), [], []⟩) from rfl)]
  rw [bind_of_ok (show attestList ⟨[.mk (.ulong (cordaId k)) []], some (.mk .list parts), [], []⟩
    = (.ok (), ⟨[.mk (.ulong (cordaId k)) []], some (.mk .list parts), [], []⟩) from rfl)]

theorem avro_object (fuel : Nat) (ai fp : Str) :
    avroNode (fuel + 1) ai (objectTree fp) = .ok (ai ++ aAliases ++ fp ++ aAliasesEnd ++ nl) := by
  unfold objectTree
  rw [avro_element]
  have : avroFor (avroBase fuel) (cordaId 3) ai = avroObject ai := by rw [← descId_eq 3 (by decide)]; rfl
  rw [this]
  unfold avroObject
  rw [bind_of_ok (attestList_list _ _ _ _), autoListEnter_eq (fun _ =>
    scoped_bind scoped_next fun _ => scoped_bind (scoped_autoNext scoped_getSymbol) fun _ => scoped_pure _) rfl]
  simp only [Bool.false_eq_true, if_false, Cursor.enter]
  rw [bind_of_ok (next_cons _ _ _ _ _)]
  rw [bind_of_ok (show autoNext getSymbol ⟨Option.toList none ++ [], some (sym fp), [.mk .null []],
      [([.mk (.ulong (cordaId 3)) []], .list, [])]⟩ = (.ok fp, ⟨[sym fp], some (.mk .null []), [],
      [([.mk (.ulong (cordaId 3)) []], .list, [])]⟩) from rfl)]
  rfl

theorem avroType_eval (type : Str) (reqs : List Str) (ai x : Str)
    (h : inferType type (reqs.head?.getD []) ai = .ok x) (p r : List Node) (u : List (List Node × Atom × List Node)) :
    (avroType ai ⟨p, some (str type), strList reqs :: r, u⟩).1 = .ok x
    ∧ ∃ c, avroType ai ⟨p, some (str type), strList reqs :: r, u⟩ = (.ok x, c) := by
  suffices hx : ∃ c, avroType ai ⟨p, some (str type), strList reqs :: r, u⟩ = (.ok x, c) by
    obtain ⟨c, hc⟩ := hx
    exact ⟨by rw [hc], c, hc⟩
  unfold avroType
  rw [bind_of_ok (nextString_str _ _ _ _ _ _)]
  rw [autoListEnter_eq (fun _ => scoped_ite (scoped_bind (scoped_getString _) fun _ => scoped_lift _) (scoped_lift _)) rfl]
  refine ⟨_, Prod.ext ?_ rfl⟩
  cases reqs with
  | nil =>
    have hg : Cursor.getList ⟨str type :: p, some (strList []), r, u⟩ = 0 := rfl
    rw [hg]
    simp only [gt_iff_lt, Nat.lt_irrefl, if_false]
    exact h
  | cons q qs =>
    have hg : Cursor.getList ⟨str type :: p, some (strList (q :: qs)), r, u⟩ = qs.length + 1 := by
      simp [Cursor.getList, strList]
    rw [hg]
    simp only [gt_iff_lt, Nat.zero_lt_succ, if_true]
    have he : (Cursor.enter ⟨str type :: p, some (strList (q :: qs)), r, u⟩).next.2
        = ⟨[], some (str q), qs.map str, (str type :: p, .list, r) :: u⟩ := rfl
    rw [he, bind_of_ok (getString_str _ _ _ _ _)]
    exact h

theorem avro_field (fuel k : Nat) (f : FieldInfo) (t : AvroShape) (h : f.Has t) (ho : t.Ok) (hs : t.render.Small) :
    avroNode (fuel + 1) (indent k) f.node = .ok (fieldText k f.name t) := by
  unfold FieldInfo.node
  rw [avro_element]
  have : avroFor (avroBase fuel) (cordaId 4) (indent k) = avroField (indent k) := by rw [← descId_eq 4 (by decide)]; rfl
  rw [this]
  unfold avroField
  rw [bind_of_ok (attestList_list _ _ _ _)]
  rw [autoListEnter_eq (fun _ =>
    scoped_guard_bind (scoped_autoNext (scoped_getString _)) (guard_autoNext (guard_getString _)) fun _ =>
    scopedOn_bind (scopedOn_avroType _) fun _ => (scoped_pure _).on) rfl]
  simp only [if_true, Cursor.enter, Cursor.next, Option.toList, List.nil_append]
  have hi : inferType f.type (f.requires.head?.getD []) (indent (k + 1)) = .ok (t.text (k + 1)) := by
    unfold inferType
    have he : (if f.type = "*".toList then f.requires.head?.getD [] else f.type) = t.render := by
      rcases h with ⟨h1, h2⟩ | ⟨h1, h2⟩
      · rw [if_pos h1, h2]; rfl
      · rw [if_neg h1, h2]
    refine infer_shape t ho hs _ (k + 1) ?_ _ _ he
    rw [← he]
    split <;> omega
  rw [bind_of_ok (nextString_str _ _ _ _ _ _), indent_deeper]
  obtain ⟨c, hc⟩ := (avroType_eval f.type f.requires (indent (k + 1)) _ hi [str f.name]
    [optStr f.default, optStr f.label, .mk (.bool f.mandatory) [], .mk (.bool f.multiple) []]
    [([.mk (.ulong (cordaId 4)) []], .list, [])]).2
  rw [bind_of_ok hc, Prog.pure_def]
  unfold fieldText
  rw [show aOpen = "{".toList from rfl, show aName = "\"name\" : \"".toList from rfl, show aNameEnd = "\", ".toList from rfl,
    show aClose = "}".toList from rfl, lit_nl]

/-- What the registry entry of the element type gives on a node. -/
theorem avro_byType_at (fuel : Nat) (ai : Str) {c : Cursor} {n : Node} (h : c.cur = some n) :
    byType (avroBase fuel ai) c = (byTypeNode (avroNode fuel ai) n, c) := by
  unfold byType byTypeNode
  rw [bind_of_ok (show look Cursor.type c = (.ok c.type, c) from rfl)]
  have : c.type = n.val.type := by simp [Cursor.type, h]
  rw [this]
  by_cases ht : n.val.type = .described
  · simp only [ht, if_true]; exact avroBase_at _ _ h
  · simp only [ht, if_false]; rfl

/-- Applying a numbered reading to the elements, each being what a second list says. -/
theorem joinRes_zip {α β : Type} {g : Nat → Node → Res Str} {f : Nat → β → Str} {tr : α → Node} (as : List α) (bs : List β)
    (hl : as.length = bs.length) (h : ∀ i, ∀ p ∈ as.zip bs, g i (tr p.1) = .ok (f i p.2)) (i : Nat) :
    joinRes g i (as.map tr) = .ok ((bs.zipIdx i).flatMap fun x => f x.2 x.1) := by
  induction as generalizing bs i with
  | nil =>
    cases bs with
    | nil => rfl
    | cons b bs => simp at hl
  | cons a as ih =>
    cases bs with
    | nil => simp at hl
    | cons b bs =>
      simp only [List.map_cons, joinRes, h i (a, b) (by simp), ih bs (by simpa using hl) (fun i p hp => h i p (by simp [hp])) (i + 1)]
      rfl

theorem avro_fields (fuel k : Nat) (fs : List FieldInfo) (ts : List AvroShape) (hl : fs.length = ts.length)
    (h : ∀ p ∈ fs.zip ts, p.1.Has p.2 ∧ p.2.Ok ∧ p.2.render.Small) (p r : List Node) (u : List (List Node × Atom × List Node)) :
    autoListEnter (fun n => forNext (fun i => do
      let f ← byType (avroBase (fuel + 1) (indent k))
      pure (f ++ (if i < n then aComma else []) ++ nl))) false
      ⟨p, some (.mk .list (fs.map FieldInfo.node)), r, u⟩
      = (.ok ((((fs.map (·.name)).zip ts).zipIdx 1).flatMap fun f =>
          fieldText k f.1.1 f.1.2 ++ (if f.2 < ((fs.map (·.name)).zip ts).length then ",".toList else []) ++ ['\n']),
        ⟨p, some (.mk .list (fs.map FieldInfo.node)), r, u⟩) := by
  rw [listEnter_join (g := fun n i x => (byTypeNode (avroNode (fuel + 1) (indent k)) x).bind fun f =>
      .ok (f ++ (if i < n then aComma else []) ++ nl))
    (fun _ _ => (scoped_bind (scoped_byType (scopedOn_avroBase _ _)) fun _ => scoped_pure _).on)
    (fun n i c x hx => by
      rw [bind_def, avro_byType_at _ _ hx]
      cases byTypeNode (avroNode (fuel + 1) (indent k)) x <;> rfl)]
  have hlen : (fs.map FieldInfo.node).length = ((fs.map (·.name)).zip ts).length := by simp [hl]
  rw [joinRes_zip (f := fun i x => fieldText k x.1 x.2 ++ (if i < ((fs.map (·.name)).zip ts).length then ",".toList else []) ++ ['\n'])
    fs ((fs.map (·.name)).zip ts) (by simp [hl])]
  intro i q hq
  have hq' : q.2.1 = q.1.name ∧ (q.1, q.2.2) ∈ fs.zip ts := by
    clear h hlen hl
    induction fs generalizing ts with
    | nil => simp at hq
    | cons f fs ih =>
      cases ts with
      | nil => simp at hq
      | cons t ts =>
        simp only [List.map_cons, List.zip_cons_cons, List.mem_cons] at hq ⊢
        rcases hq with rfl | hq
        · simp
        · obtain ⟨a, b⟩ := ih ts hq
          exact ⟨a, .inr b⟩
  obtain ⟨h1, h2, h3⟩ := h _ hq'.2
  rw [show byTypeNode (avroNode (fuel + 1) (indent k)) q.1.node = avroNode (fuel + 1) (indent k) q.1.node from rfl,
    avro_field fuel k q.1 q.2.2 h1 h2 h3, hlen, hq'.1]
  rfl

theorem nextObject_avro (fuel : Nat) (ai fp : Str) (p r : List Node) (n : Node)
    (u : List (List Node × Atom × List Node)) :
    autoNext (byType (avroBase (fuel + 1) ai)) ⟨p, some (objectTree fp), n :: r, u⟩
      = (.ok (ai ++ aAliases ++ fp ++ aAliasesEnd ++ nl), ⟨objectTree fp :: p, some n, r, u⟩) := by
  have : byType (avroBase (fuel + 1) ai) ⟨p, some (objectTree fp), n :: r, u⟩
      = (.ok (ai ++ aAliases ++ fp ++ aAliasesEnd ++ nl), ⟨p, some (objectTree fp), n :: r, u⟩) := by
    rw [show byType (avroBase (fuel + 1) ai) ⟨p, some (objectTree fp), n :: r, u⟩
      = avroBase (fuel + 1) ai ⟨p, some (objectTree fp), n :: r, u⟩ from rfl, avroBase_at _ _ rfl, avro_object]
  simp only [autoNext, this]
  rfl

theorem simpleName_append (a b : Str) (h : '.' ∉ b) : simpleName (a ++ '.' :: b) = b := by
  unfold simpleName
  rw [List.reverse_append, List.reverse_cons, List.append_assoc, List.takeWhile_append_of_pos]
  · simp
  · intro x hx
    simp only [bne_iff_ne, ne_eq]
    rintro rfl
    exact h (List.mem_reverse.mp hx)

theorem simpleName_none (a : Str) (h : '.' ∉ a) : simpleName a = a := by
  unfold simpleName
  have := List.takeWhile_append_of_pos (p := (· != '.')) (l₁ := a.reverse) (l₂ := []) (by
    intro x hx
    simp only [bne_iff_ne, ne_eq]
    rintro rfl
    exact h (List.mem_reverse.mp hx))
  simp only [List.append_nil, List.takeWhile_nil] at this
  rw [this, List.reverse_reverse]

theorem last_dot {name : Str} (h : '.' ∈ name) : ∃ a b, name = a ++ '.' :: b ∧ '.' ∉ b := by
  obtain ⟨x, y, e, hx⟩ := List.eq_append_cons_of_mem (List.mem_reverse.mpr h)
  refine ⟨y.reverse, x.reverse, ?_, by rwa [List.mem_reverse]⟩
  have := congrArg List.reverse e
  simpa using this

theorem packageName_append (a b : Str) (h : '.' ∉ b) : packageName (a ++ '.' :: b) = a := by
  unfold packageName
  rw [if_pos (by simp), simpleName_append a b h]
  have : (a ++ '.' :: b).length - b.length - 1 = a.length := by simp; omega
  rw [this, List.take_left]

theorem packageName_none (a : Str) (h : '.' ∉ a) : packageName a = a := by
  unfold packageName
  rw [if_neg h]

/-- Splitting a class name at the last dot. -/
theorem split_name (name : Str) (hs : name.Small) :
    substr name (addW (findLast '.' name) 1) npos = .ok (simpleName name)
    ∧ substr name 0 (findLast '.' name) = .ok (packageName name) := by
  unfold Str.Small at hs
  by_cases h : '.' ∈ name
  · obtain ⟨a, b, rfl, hb⟩ := last_dot h
    rw [findLast_append a b _ hb, simpleName_append a b hb, packageName_append a b hb]
    have hl : (a ++ '.' :: b).length = a.length + 1 + b.length := by simp; omega
    rw [hl] at hs
    rw [addW_of_lt (by unfold sizeMod; omega)]
    unfold substr
    rw [if_neg (by omega), if_neg (by omega)]
    constructor
    · congr 1
      rw [show a ++ '.' :: b = (a ++ ['.']) ++ b by simp, List.drop_append_of_le_length (by simp)]
      rw [List.drop_of_length_le (by simp), List.nil_append, List.take_of_length_le (by unfold npos sizeMod; omega)]
    · congr 1
      simp
  · have hn : name.length ≤ npos := by unfold npos sizeMod; omega
    rw [findLast_none _ _ h, simpleName_none _ h, packageName_none _ h]
    have h0 : addW npos 1 = 0 := by decide
    rw [h0]
    unfold substr
    rw [if_neg (by omega), List.drop_zero, List.take_of_length_le hn]
    exact ⟨rfl, rfl⟩

theorem lift_ok (x : Str) (c : Cursor) : lift (.ok x) c = (.ok x, c) := rfl

theorem avro_composite (fuel : Nat) (name : Str) (label : Option Str) (provides : List Str) (fp : Str)
    (fields : List FieldInfo) (ts : List AvroShape) (hl : fields.length = ts.length)
    (h : ∀ p ∈ fields.zip ts, p.1.Has p.2 ∧ p.2.Ok ∧ p.2.render.Small) (hn : name.Small) :
    avroNode (fuel + 2) [] (TypeInfo.composite name label provides fp fields).node
      = .ok (recordText name fp ((fields.map (·.name)).zip ts)) := by
  unfold TypeInfo.node
  rw [avro_element]
  have : avroFor (avroBase (fuel + 1)) (cordaId 5) [] = avroComposite (avroBase (fuel + 1)) [] := by
    rw [← descId_eq 5 (by decide)]; rfl
  rw [this]
  have hs := scopedOn_avroBase (fuel + 1)
  unfold avroComposite
  rw [bind_of_ok (attestList_list _ _ _ _)]
  rw [autoEnter_eq (
    scoped_bind (scoped_attestString _) fun _ =>
    scoped_guard_bind (scoped_readString _) (guard_readString _) fun _ =>
    scopedOn_bind (scoped_lift _).on fun _ => scopedOn_bind (scoped_lift _).on fun _ =>
    scopedOn_bind (scoped_attestString _).on fun _ => scopedOn_bind scoped_next.on fun _ =>
    scopedOn_bind scoped_list.on fun _ => scopedOn_bind scoped_next.on fun _ =>
    scopedOn_bind scoped_described.on fun _ =>
    scopedOn_bind (scoped_autoNext (scoped_byType (hs _))).on fun _ =>
    scopedOn_bind (scopedOn_autoListEnter fun _ => scoped_forNext fun _ =>
      (scoped_bind (scoped_byType (hs _)) fun _ => scoped_pure _).on) fun _ => (scoped_pure _).on) rfl]
  simp only [Bool.false_eq_true, if_false, Cursor.enter, Cursor.next, Option.toList, List.nil_append]
  obtain ⟨e1, e2⟩ := split_name name hn
  have d1 : deeper [] = indent 1 := by decide
  have d2 : deeper (indent 1) = indent 2 := by decide
  rw [bind_of_ok (attestString_str _ _ _ _ _), bind_of_ok (readString_str _ _ _ _ _ _), e1, e2, d1, d2]
  rw [bind_of_ok (lift_ok _ _), bind_of_ok (lift_ok _ _), bind_of_ok (attestString_opt _ _ _ _ _), bind_of_ok (next_cons _ _ _ _ _),
    bind_of_ok (attestList_strList _ _ _ _),
    bind_of_ok (next_cons _ _ _ _ _), bind_of_ok (attestDescribed_object _ _ _ _),
    bind_of_ok (nextObject_avro _ _ _ _ _ _ _), bind_of_ok (avro_fields _ _ _ _ hl h _ _ _)]
  rw [Prog.pure_def]
  unfold recordText
  rw [show aOpen = "{".toList from rfl, show aRecord = "\"type\" : \"record\",".toList from rfl,
    show aName = "\"name\" : \"".toList from rfl, show aQuoteComma = "\",".toList from rfl,
    show aNamespace = "\"namespace\" : \"".toList from rfl, show aAliases = "\"aliases\" : [ \"".toList from rfl,
    show aAliasesEnd = "\" ],".toList from rfl, show aFields = "\"fields\" : [".toList from rfl,
    show aFieldsEnd = "]".toList from rfl, show aClose = "}".toList from rfl, lit_nl]
  simp only [List.append_assoc]

theorem avro_restricted (fuel : Nat) (name : Str) (label : Option Str) (provides : List Str)
    (source fp : Str) (choices : List Node) :
    avroNode (fuel + 1) [] (TypeInfo.restricted name label provides source fp choices).node = .ok [] := by
  unfold TypeInfo.node
  rw [avro_element]
  have : avroFor (avroBase fuel) (cordaId 6) [] = avroRestricted := by rw [← descId_eq 6 (by decide)]; rfl
  rw [this]
  rfl

/-- The text of one type. -/
def typeText : AvroType → Str
  | .record name fp fields => recordText name fp fields
  | .other => []

theorem avro_type (fuel : Nat) (t : TypeInfo) (a : AvroType) (h : Says t a) :
    avroNode (fuel + 2) [] t.node = .ok (typeText a) := by
  cases h with
  | composite h1 h2 h3 => exact avro_composite _ _ _ _ _ _ _ h1 h2 h3
  | restricted => exact avro_restricted _ _ _ _ _ _ _

theorem recordText_ne (name fp : Str) (fields : List (Str × AvroShape)) : recordText name fp fields ≠ [] := by
  unfold recordText
  simp

/-- One type with what follows it. -/
def typeStep (n i : Nat) (a : AvroType) : Str :=
  match a with
  | .record name fp fields => recordText name fp fields ++ (if i < n then ",".toList else []) ++ ['\n']
  | .other => []

theorem typeStep_eq (n i : Nat) (a : AvroType) :
    (if typeText a = [] then [] else typeText a ++ (if i < n then aComma else []) ++ nl) = typeStep n i a := by
  cases a with
  | record name fp fields =>
    simp only [typeText, recordText_ne, if_false, typeStep]
    rfl
  | other => rfl

theorem avro_schema (fuel : Nat) (ts : List TypeInfo) (as : List AvroType) (hl : ts.length = as.length)
    (h : ∀ p ∈ ts.zip as, Says p.1 p.2) : avroNode (fuel + 3) [] (schemaNode [ts]) = .ok (avroText as) := by
  unfold schemaNode
  rw [avro_element]
  have : avroFor (avroBase (fuel + 2)) (cordaId 2) [] = avroSchema (avroBase (fuel + 2)) [] := by
    rw [← descId_eq 2 (by decide)]; rfl
  rw [this]
  unfold avroSchema
  rw [bind_of_ok (attestList_list _ _ _ _)]
  have hin : autoListEnter (fun m => forNext (fun j => do
        let x ← byType (avroBase (fuel + 2) [])
        pure (if x = [] then [] else x ++ (if j < m then aComma else []) ++ nl))) false
      ⟨[], some (.mk .list (ts.map TypeInfo.node)), [], [([.mk (.ulong (cordaId 2)) []], .list, [])]⟩
      = (.ok (avroText as), ⟨[], some (.mk .list (ts.map TypeInfo.node)), [], [([.mk (.ulong (cordaId 2)) []], .list, [])]⟩) := by
    rw [listEnter_join (g := fun n i x => (byTypeNode (avroNode (fuel + 2) []) x).bind fun x =>
        .ok (if x = [] then [] else x ++ (if i < n then aComma else []) ++ nl))
      (fun _ _ => (scoped_bind (scoped_byType (scopedOn_avroBase _ _)) fun _ => scoped_pure _).on)
      (fun n i c x hx => by
        rw [bind_def, avro_byType_at _ _ hx]
        cases byTypeNode (avroNode (fuel + 2) []) x <;> rfl)]
    rw [joinRes_zip (f := fun i a => typeStep as.length i a) ts as hl]
    · rfl
    · intro i p hp
      rw [show byTypeNode (avroNode (fuel + 2) []) p.1.node = avroNode (fuel + 2) [] p.1.node by cases p.1 <;> rfl,
        avro_type fuel _ _ (h p hp)]
      simp only [Res.bind, List.length_map, hl, typeStep_eq]
  have outer : ∀ (p : Nat → Prog Str) (c : Cursor), (autoListEnter p true c).1 = (p c.getList c.enter.next.2).1 := fun _ _ => rfl
  rw [outer]
  have hg : Cursor.getList ⟨[.mk (.ulong (cordaId 2)) []], some (.mk .list ([ts].map fun ts => .mk .list (ts.map TypeInfo.node))), [], []⟩ = 1 := rfl
  simp only [hg, if_true]
  have he : (Cursor.enter ⟨[.mk (.ulong (cordaId 2)) []], some (.mk .list ([ts].map fun ts => .mk .list (ts.map TypeInfo.node))), [], []⟩).next.2
    = ⟨[], some (.mk .list (ts.map TypeInfo.node)), [], [([.mk (.ulong (cordaId 2)) []], .list, [])]⟩ := rfl
  rw [he, hin]

theorem avro_envelope (fuel : Nat) (fp : Str) (payload : List Node) (ts : List TypeInfo) (as : List AvroType) (more : List Node)
    (hl : ts.length = as.length) (h : ∀ p ∈ ts.zip as, Says p.1 p.2) :
    avroNode (fuel + 4) [] (envelopeNode fp payload [ts] more) = .ok (avroText as) := by
  unfold envelopeNode
  rw [avro_element]
  have : avroFor (avroBase (fuel + 3)) (cordaId 1) [] = avroEnvelope (avroBase (fuel + 3)) [] := by
    rw [← descId_eq 1 (by decide)]; rfl
  rw [this]
  unfold avroEnvelope
  rw [bind_of_ok (attestList_list _ _ _ _)]
  rw [autoEnter_eq (scoped_autoNext (scoped_byType (scopedOn_avroBase _ _))) rfl]
  simp only [if_true, Cursor.enter, Cursor.next, Option.toList, List.nil_append]
  simp only [autoNext]
  rw [avro_byType_at _ _ rfl]
  rw [show byTypeNode (avroNode (fuel + 3) []) (schemaNode [ts]) = avroNode (fuel + 3) [] (schemaNode [ts]) from rfl,
    avro_schema fuel ts as hl h]

end Corda
