import Verif.Lemmas.Json

/-
C63, C64: dumping the schema of a blob in Avro form.
-/

namespace Corda.Props
open Corda Corda.Prog Corda.Spec

/-! ### C63: the Avro text -/

/-- **C63.** The Avro dump of an envelope whose schema is one list of types, with any number of classes and other types and any
nesting of containers in the fields, is exactly the prescribed text, whatever the payload and whatever follows the schema. -/
theorem C63_avro_text (fp : Str) (payload : List Node) (ts : List TypeInfo) (as : List AvroType) (more : List Node) (c : Cursor)
    (hl : ts.length = as.length) (h : ∀ p ∈ ts.zip as, Says p.1 p.2)
    (hc : c.cur = some (envelopeNode fp payload [ts] more)) :
    (dumpSchema .avro c).1 = .ok (avroText as) := by
  unfold dumpSchema
  have ht : c.type = .described := by simp only [Cursor.type, hc]; rfl
  rw [bind_of_ok (show look Cursor.type c = (.ok c.type, c) from rfl)]
  simp only [ne_eq, ht, not_true, if_false]
  rw [avroBase_at _ _ hc]
  have hf : ∃ f, c.fuel = f + 4 := by
    refine ⟨c.fuel - 4, ?_⟩
    have : 4 ≤ c.fuel := by
      unfold Cursor.fuel
      rw [hc]
      simp only [envelopeNode, schemaNode, element, Node.height, Node.height.heights]
      omega
    omega
  obtain ⟨f, hf⟩ := hf
  rw [hf]
  exact avro_envelope f fp payload ts as more hl h

/-! ### C64: JSON -/

private theorem lit_name : "\"name\" : \"".toList = quoted "name".toList ++ [' ', ':', ' ', '"'] := by decide
private theorem lit_tType : tType = quoted "type".toList ++ [' ', ':', ' ', '"'] := by decide
private theorem lit_tTypeEnd : tTypeEnd = ['"', '\n'] := by decide
private theorem lit_nameEnd : "\", ".toList = ['"', ',', ' '] := by decide
private theorem lit_open : "{".toList = ['{'] := by decide
private theorem lit_shut : "}".toList = ['}'] := by decide
private theorem lit_bracket : "]".toList = [']'] := by decide
private theorem lit_comma : ",".toList = [','] := by decide
private theorem lit_record : "\"type\" : \"record\",".toList
    = quoted "type".toList ++ (' ' :: ':' :: ' ' :: (quoted "record".toList ++ [','])) := by decide
private theorem lit_quoteComma : "\",".toList = ['"', ','] := by decide
private theorem lit_namespace : "\"namespace\" : \"".toList = quoted "namespace".toList ++ [' ', ':', ' ', '"'] := by decide
private theorem lit_aliases : "\"aliases\" : [ \"".toList = quoted "aliases".toList ++ [' ', ':', ' ', '[', ' ', '"'] := by decide
private theorem lit_aliasesEnd : "\" ],".toList = ['"', ' ', ']', ','] := by decide
private theorem lit_fields : "\"fields\" : [".toList = quoted "fields".toList ++ [' ', ':', ' ', '['] := by decide

private theorem quotable_keys : ∀ k ∈ ["name", "type", "record", "namespace", "aliases", "fields"], Quotable k.toList := by
  unfold Quotable
  decide

private theorem cons_blank (k : Nat) : ∀ c ∈ '\n' :: indent k, Blank c := by
  intro c hc
  rcases List.mem_cons.mp hc with rfl | hc
  · decide
  · exact indent_blank k c hc

private theorem json_field (k : Nat) (n t : Str) (hn : Quotable n) (ht : Quotable t) :
    JsonText (.value (.obj [("name".toList, .str n), ("type".toList, .str t)])) (fieldText k n (.leaf t)) := by
  have m2 : JsonText (.members [("type".toList, .str t)])
      ((' ' :: '\n' :: indent (k + 1)) ++ (quoted "type".toList ++ [' ']) ++ ':' :: ([' '] ++ (quoted t ++ ('\n' :: indent k)))) :=
    .member (key_text (quotable_keys "type" (by decide)) (by
      intro c hc
      rcases List.mem_cons.mp hc with rfl | hc
      · decide
      · exact cons_blank _ c hc)) (writes_before blank_blank (writes_after (cons_blank k) (writes_quoted ht)))
  have m1 := JsonText.members (key_text (quotable_keys "name" (by decide)) (cons_blank (k + 1)))
    (writes_before blank_blank (writes_quoted hn)) m2
  have := writes_before (indent_blank k) (JsonText.obj m1)
  have e : fieldText k n (.leaf t) = indent k ++ '{' :: (('\n' :: indent (k + 1) ++ (quoted "name".toList ++ [' '])
      ++ ':' :: ([' '] ++ quoted n ++ ',' :: ((' ' :: '\n' :: indent (k + 1)) ++ (quoted "type".toList ++ [' '])
        ++ ':' :: ([' '] ++ (quoted t ++ ('\n' :: indent k)))))) ++ ['}']) := by
    unfold fieldText AvroShape.text
    rw [lit_name, lit_tType, lit_tTypeEnd, lit_nameEnd, lit_open, lit_shut]
    unfold quoted
    simp only [List.append_assoc, List.cons_append, List.nil_append]
  rw [e]
  exact this

/-- Values one below the other with commas between them. -/
private theorem json_lines {α : Type} (f : α → Str) (g : α → Json) (n : Nat) (xs : List α) (h : ∀ x ∈ xs, JsonText (.value (g x)) (f x))
    (i : Nat) (hn : n + 1 = i + xs.length) :
    JsonText (.items (xs.map g)) ((xs.zipIdx i).flatMap fun x => f x.1 ++ (if x.2 < n then ",".toList else []) ++ ['\n']) := by
  induction xs generalizing i with
  | nil => exact .noItems (by simp)
  | cons x xs ih =>
    simp only [List.zipIdx_cons, List.flatMap_cons, List.map_cons]
    have hx := h x (by simp)
    cases xs with
    | nil =>
      rw [if_neg (by simp at hn; omega)]
      simpa using JsonText.item (JsonText.after '\n' (by decide) hx)
    | cons y ys =>
      rw [if_pos (by simp at hn; omega)]
      have := ih (fun z hz => h z (by simp [hz])) (i + 1) (by simp at hn ⊢; omega)
      have := JsonText.items hx (items_before '\n' (by decide) this)
      rw [lit_comma]
      simpa using this

private theorem mem_simpleName {s : Str} {c : Char} (h : c ∈ simpleName s) : c ∈ s := by
  unfold simpleName at h
  exact List.mem_reverse.mp ((List.takeWhile_subset _) (List.mem_reverse.mp h))

private theorem mem_packageName {s : Str} {c : Char} (h : c ∈ packageName s) : c ∈ s := by
  unfold packageName at h
  split at h
  · exact List.mem_of_mem_take h
  · exact h

private theorem leaf_of {t : AvroShape} (h : t.isLeaf = true) : t = .leaf t.render := by
  cases t <;> first | rfl | simp [AvroShape.isLeaf] at h

private theorem json_record (name fp : Str) (fields : List (Str × AvroShape)) (h : (AvroType.record name fp fields).Named)
    (hs : (AvroType.record name fp fields).Simple) :
    JsonText (.value (record name fp (fields.map fun f => (f.1, f.2.render)))) (recordText name fp fields) := by
  obtain ⟨hn, hf, hfs⟩ := h
  have hsn : Quotable (simpleName name) := fun c hc => hn c (mem_simpleName hc)
  have hpn : Quotable (packageName name) := fun c hc => hn c (mem_packageName hc)
  have hitems := json_lines (fun f : Str × AvroShape => fieldText 2 f.1 f.2)
    (fun f => Json.obj [("name".toList, .str f.1), ("type".toList, .str f.2.render)]) fields.length fields (fun f hx => by
      have h1 := hfs f hx
      have h2 := hs f hx
      have h3 := leaf_of h2
      have h4 : Quotable f.2.render := by
        have := h1.2
        rw [h3] at this
        exact this.1
      have := json_field 2 f.1 f.2.render h1.1 h4
      rw [← h3] at this
      exact this) 1 (by omega)
  generalize htext : ((fields.zipIdx 1).flatMap fun f =>
    fieldText 2 f.1.1 f.1.2 ++ (if f.2 < fields.length then ",".toList else []) ++ ['\n']) = ftext at hitems
  have hitems' := items_before '\n' (by decide) (items_afters (indent_blank 1) hitems)
  have b1 := cons_blank 1
  have m5 := JsonText.member (key_text (quotable_keys "fields" (by decide)) b1)
    (writes_before blank_blank (writes_after nl_blank (JsonText.arr hitems')))
  have m4 := JsonText.members (key_text (quotable_keys "aliases" (by decide)) b1)
    (writes_before blank_blank (JsonText.arr (JsonText.item (writes_before blank_blank (writes_after blank_blank (writes_quoted hf)))))) m5
  have m3 := JsonText.members (key_text (quotable_keys "namespace" (by decide)) b1)
    (writes_before blank_blank (writes_quoted hpn)) m4
  have m2 := JsonText.members (key_text (quotable_keys "name" (by decide)) b1)
    (writes_before blank_blank (writes_quoted hsn)) m3
  have m1 := JsonText.members (key_text (quotable_keys "type" (by decide)) b1)
    (writes_before blank_blank (writes_quoted (quotable_keys "record" (by decide)))) m2
  have := JsonText.obj m1
  unfold record
  rw [List.map_map]
  refine Eq.mp (congrArg (JsonText _) ?_) this
  symm
  unfold recordText
  rw [htext, lit_record, lit_name, lit_quoteComma, lit_namespace, lit_aliases, lit_aliasesEnd, lit_fields, lit_open, lit_shut,
    lit_bracket]
  unfold quoted
  simp only [List.append_assoc, List.cons_append, List.nil_append]

private def recordsOf (ts : List AvroType) : List Json := ts.filterMap fun t =>
  match t with
  | .record name fp fields => some (record name fp (fields.map fun f => (f.1, f.2.render)))
  | .other => none

private def textFrom (n i : Nat) (ts : List AvroType) : Str := (ts.zipIdx i).flatMap fun t =>
    match t.1 with
    | .record name fp fields => recordText name fp fields ++ (if t.2 < n then ",".toList else []) ++ ['\n']
    | .other => []

private theorem textFrom_none (n i : Nat) (ts : List AvroType) (h : ∀ t ∈ ts, t.isRecord = false) :
    textFrom n i ts = [] ∧ recordsOf ts = [] := by
  induction ts generalizing i with
  | nil => exact ⟨rfl, rfl⟩
  | cons t ts ih =>
    have h1 := h t (by simp)
    cases t with
    | record => simp [AvroType.isRecord] at h1
    | other =>
      obtain ⟨a, b⟩ := ih (i + 1) fun x hx => h x (by simp [hx])
      exact ⟨by simpa [textFrom] using a, by simpa [recordsOf] using b⟩

private theorem json_records (n : Nat) (ts : List AvroType) (hn : ∀ t ∈ ts, t.Named) (hs : ∀ t ∈ ts, t.Simple) (i : Nat)
    (hi : n + 1 = i + ts.length) (hl : ∃ t, ts.getLast? = some t ∧ t.isRecord = true) :
    JsonText (.items (recordsOf ts)) (textFrom n i ts) ∧ recordsOf ts ≠ [] := by
  induction ts generalizing i with
  | nil => simp at hl
  | cons t ts ih =>
    have ih := ih (fun x hx => hn x (by simp [hx])) (fun x hx => hs x (by simp [hx])) (i + 1) (by simp at hi; omega)
    cases ts with
    | nil =>
      obtain ⟨t', h1, h2⟩ := hl
      simp at h1; subst h1
      cases t with
      | other => simp [AvroType.isRecord] at h2
      | record name fp fields =>
        have := json_record name fp fields (hn _ (by simp)) (hs _ (by simp))
        refine ⟨?_, by simp [recordsOf]⟩
        have := JsonText.item (JsonText.after '\n' (by decide) this)
        simp at hi
        simpa [recordsOf, textFrom, show ¬ i < n by omega] using this
    | cons y ys =>
      have ih := ih (by simpa using hl)
      cases t with
      | other => simpa [recordsOf, textFrom] using ih
      | record name fp fields =>
        have := json_record name fp fields (hn _ (by simp)) (hs _ (by simp))
        obtain ⟨h1, h2⟩ := ih
        refine ⟨?_, by simp [recordsOf]⟩
        have e1 : recordsOf (.record name fp fields :: y :: ys)
            = record name fp (fields.map fun f => (f.1, f.2.render)) :: recordsOf (y :: ys) := rfl
        have e2 : textFrom n i (.record name fp fields :: y :: ys)
            = recordText name fp fields ++ ',' :: '\n' :: textFrom n (i + 1) (y :: ys) := by
          simp at hi
          simp only [textFrom, List.zipIdx_cons, List.flatMap_cons, lit_comma]
          rw [if_pos (by omega)]
          simp
        rw [e1, e2]
        obtain ⟨j, js, e3⟩ := List.exists_cons_of_ne_nil h2
        rw [e3] at h1 ⊢
        exact JsonText.items this (items_before '\n' (by decide) h1)

private theorem json_avro (ts : List AvroType) (hn : ∀ t ∈ ts, t.Named) (hs : ∀ t ∈ ts, t.Simple) (hc : CommasOk ts) :
    JsonText (.value (avroJson ts)) ("[".toList ++ avroText ts ++ "]".toList) := by
  rw [show "[".toList = ['['] from by decide, lit_bracket]
  refine JsonText.arr (js := recordsOf ts) (t := textFrom ts.length 1 ts) ?_
  rcases hc with hc | hc
  · obtain ⟨a, b⟩ := textFrom_none ts.length 1 ts hc
    rw [a, b]
    exact .noItems (by simp)
  · exact (json_records ts.length ts hn hs 1 (by omega) hc).1

/-! What goes wrong. -/

private theorem run_quoted (l : Char) {s : Str} (h : Quotable s) : (Scan.out l).run (quoted s) = .out '"' := by
  unfold quoted
  rw [run_cons, step_quote, run_append, run_raw h]
  rfl

private theorem run_bare (l : Char) {s : Str} (h : Quotable s) (hq : NeedsQuotes s) : (Scan.out l).run s = .bad := by
  obtain ⟨x, hx, h1, h2⟩ := hq
  induction s generalizing l with
  | nil => simp at hx
  | cons c s ih =>
    have hc := (h c (by simp)).1
    rw [run_cons]
    rcases List.mem_cons.mp hx with rfl | hx'
    · rw [show (Scan.out l).step x = .bad by simp only [Scan.step, h1, h2, hc, if_false]]
      exact run_bad s
    · have : (Scan.out l).step c = .bad ∨ ∃ l', (Scan.out l).step c = .out l' := by
        simp only [Scan.step, hc, if_false]
        repeat' split
        all_goals first | exact .inl rfl | exact .inr ⟨_, rfl⟩
      rcases this with e | ⟨l', e⟩
      · rw [e]; exact run_bad s
      · rw [e]; exact ih l' (fun y hy => h y (by simp [hy])) hx'

private theorem run_key (l : Char) {k : Str} (h : Quotable k) : (Scan.out l).run (quoted k ++ [' ', ':', ' ']) = .out ':' := by
  rw [run_append, run_quoted l h]
  decide

private theorem lit_tArray : tArray = quoted "type".toList ++ [' ', ':', ' '] ++ (quoted "array".toList ++ [',', '\n']) := by decide
private theorem lit_tItems : tItems = quoted "items".toList ++ [' ', ':', ' '] := by decide
private theorem lit_tMap : tMap = quoted "type".toList ++ [' ', ':', ' '] ++ ('"' :: ("map,".toList ++ ['\n'])) := by decide

private theorem run_tArray (l : Char) : (Scan.out l).run tArray = .out ',' := by
  rw [lit_tArray, run_append, run_key l (quotable_keys "type" (by decide)), run_append,
    run_quoted _ (by unfold Quotable; decide)]
  decide

private theorem run_tItems (l : Char) : (Scan.out l).run tItems = .out ':' := by
  rw [lit_tItems]; exact run_key l (by unfold Quotable; decide)

private theorem run_tMap (l : Char) : (Scan.out l).run tMap = .bad := by
  rw [lit_tMap, run_append, run_key l (quotable_keys "type" (by decide)), run_cons, step_quote, run_append,
    run_raw (by unfold Quotable; decide)]
  decide

private theorem run_items (k : Nat) (l : Char) : (Scan.out l).run (indent k ++ tArray ++ indent k ++ tItems) = .out ':' := by
  rw [run_append, run_append, run_append, run_blanks (indent_blank k), run_tArray, run_blanks (indent_blank k), run_tItems]

private theorem unboxed_named {n : Str} (h : Quotable n ∧ NeedsQuotes n) : Quotable (unboxed n) ∧ NeedsQuotes (unboxed n) := by
  unfold unboxed
  have table : ∀ p ∈ boxed, (∀ c ∈ p.2.toList, PlainChar c) ∧ ∃ c ∈ p.2.toList, c ∉ bareChars ∧ ¬ Blank c := by decide
  split
  · next p hp => exact table p (List.mem_of_find?_eq_some hp)
  · exact h

/-- A container type is never written as JSON. -/
private theorem run_container (t : AvroShape) (h : t.Named) (hl : t.isLeaf = false) (k : Nat) (l : Char) :
    (Scan.out l).run (t.text k) = .bad := by
  induction t generalizing k l with
  | leaf => simp [AvroShape.isLeaf] at hl
  | array p t ih =>
    cases t with
    | leaf n =>
      rw [AvroShape.text, run_append, run_append, run_items, run_bare _ h.1 h.2]
      exact run_bad _
    | _ =>
      all_goals
        rw [AvroShape.text, run_append, run_append, run_append, run_append, run_items,
          show (Scan.out ':').run ['{', ' ', '\n'] = .out '{' by decide, ih h rfl, run_bad, run_bad]
        simp
  | list t ih =>
    cases t with
    | leaf n =>
      rw [AvroShape.text, run_append, run_append, run_items, run_bare _ (unboxed_named h).1 (unboxed_named h).2]
      exact run_bad _
    | _ =>
      all_goals
        rw [AvroShape.text, run_append, run_append, run_append, run_append, run_items,
          show (Scan.out ':').run ['{'] = .out '{' by decide, ih h rfl, run_bad, run_bad]
        simp
  | map b key v _ _ =>
    have : ∃ rest, AvroShape.text k (.map b key v) = indent k ++ tMap ++ rest := by
      cases v <;> simp only [AvroShape.text, List.append_assoc] <;> exact ⟨_, rfl⟩
    obtain ⟨rest, e⟩ := this
    rw [e, run_append, run_append, run_blanks (indent_blank k), run_tMap, run_bad]

private theorem run_leaf (k : Nat) {n : Str} (h : Quotable n) (l : Char) : (Scan.out l).run (AvroShape.text k (.leaf n)) = .out '"' := by
  have e : AvroShape.text k (.leaf n) = indent k ++ (quoted "type".toList ++ [' ', ':', ' ']) ++ quoted n ++ ['\n'] := by
    unfold AvroShape.text
    rw [lit_tType, lit_tTypeEnd]
    unfold quoted
    simp only [List.append_assoc, List.cons_append, List.nil_append]
  rw [e, run_append, run_append, run_append, run_blanks (indent_blank k), run_key l (quotable_keys "type" (by decide)), run_quoted _ h]
  decide

private theorem run_field (k : Nat) (n : Str) (t : AvroShape) (hn : Quotable n) (ht : t.Named) (l : Char) :
    (Scan.out l).run (fieldText k n t) = if t.isLeaf then .out '}' else .bad := by
  have e : fieldText k n t = indent k ++ ['{', '\n'] ++ indent (k + 1) ++ (quoted "name".toList ++ [' ', ':', ' ']) ++ quoted n
      ++ [',', ' ', '\n'] ++ t.text (k + 1) ++ (indent k ++ ['}']) := by
    unfold fieldText
    rw [lit_name, lit_nameEnd, lit_open, lit_shut]
    unfold quoted
    simp only [List.append_assoc, List.cons_append, List.nil_append]
  have h1 : (Scan.out l).run ['{', '\n'] = .out '{' := by
    rw [run_cons, step_open l '{' (by decide)]; decide
  have h2 : (Scan.out '"').run [' ', ':', ' '] = .out ':' := by decide
  have h3 : (Scan.out '"').run [',', ' ', '\n'] = .out ',' := by decide
  rw [e]
  simp only [run_append, run_blanks (indent_blank _), h1, h2, h3, run_quoted _ (quotable_keys "name" (by decide)), run_quoted _ hn]
  cases h : t.isLeaf with
  | true =>
    rw [leaf_of h] at ht ⊢
    simp only [run_leaf _ ht.1, run_blanks (indent_blank k)]
    decide
  | false => simp only [run_container t ht h, run_bad]; rfl

private theorem run_fields (n : Nat) (fs : List (Str × AvroShape)) (h : ∀ f ∈ fs, Quotable f.1 ∧ f.2.Named) (i : Nat) (l : Char)
    (hbad : ∃ f ∈ fs, f.2.isLeaf = false) :
    (Scan.out l).run ((fs.zipIdx i).flatMap fun f =>
      fieldText 2 f.1.1 f.1.2 ++ (if f.2 < n then ",".toList else []) ++ ['\n']) = .bad := by
  induction fs generalizing i l with
  | nil => simp at hbad
  | cons f fs ih =>
    simp only [List.zipIdx_cons, List.flatMap_cons]
    rw [run_append, run_append, run_append, run_field 2 _ _ (h f (by simp)).1 (h f (by simp)).2]
    cases hf : f.2.isLeaf with
    | false =>
      simp only [Bool.false_eq_true, if_false]
      rw [run_bad, run_bad, run_bad]
    | true =>
      obtain ⟨g, hg, hg'⟩ := hbad
      have hfs : ∃ f ∈ fs, f.2.isLeaf = false := by
        rcases List.mem_cons.mp hg with rfl | hg
        · rw [hf] at hg'; simp at hg'
        · exact ⟨g, hg, hg'⟩
      simp only [if_true]
      have hstep : ∃ l', ((Scan.out '}').run (if i < n then ",".toList else [])).run ['\n'] = .out l' := by
        split
        · exact ⟨',', by decide⟩
        · exact ⟨'}', by decide⟩
      obtain ⟨l', e⟩ := hstep
      rw [e]
      exact ih (fun x hx => h x (by simp [hx])) (i + 1) l' hfs

private theorem run_record_bad (name fp : Str) (fields : List (Str × AvroShape)) (h : (AvroType.record name fp fields).Named)
    (hs : ¬ (AvroType.record name fp fields).Simple) (l : Char) : (Scan.out l).run (recordText name fp fields) = .bad := by
  obtain ⟨hn, hf, hfs⟩ := h
  have hsn : Quotable (simpleName name) := fun c hc => hn c (mem_simpleName hc)
  have hpn : Quotable (packageName name) := fun c hc => hn c (mem_packageName hc)
  have hbad : ∃ f ∈ fields, f.2.isLeaf = false := by
    simpa [AvroType.Simple] using hs
  have hbad := fun l => run_fields fields.length fields hfs 1 l hbad
  generalize htext : ((fields.zipIdx 1).flatMap fun f =>
    fieldText 2 f.1.1 f.1.2 ++ (if f.2 < fields.length then ",".toList else []) ++ ['\n']) = ftext at hbad
  have e : recordText name fp fields = ['{', '\n']
      ++ indent 1 ++ (quoted "type".toList ++ [' ', ':', ' ']) ++ quoted "record".toList ++ [',', '\n']
      ++ indent 1 ++ (quoted "name".toList ++ [' ', ':', ' ']) ++ quoted (simpleName name) ++ [',', '\n']
      ++ indent 1 ++ (quoted "namespace".toList ++ [' ', ':', ' ']) ++ quoted (packageName name) ++ [',', '\n']
      ++ indent 1 ++ (quoted "aliases".toList ++ [' ', ':', ' ']) ++ ['[', ' '] ++ quoted fp ++ [' ', ']', ',', '\n']
      ++ indent 1 ++ (quoted "fields".toList ++ [' ', ':', ' ']) ++ ['[', '\n'] ++ ftext
      ++ (indent 1 ++ [']', '\n', '}']) := by
    unfold recordText
    rw [htext, lit_record, lit_name, lit_quoteComma, lit_namespace, lit_aliases, lit_aliasesEnd, lit_fields, lit_open, lit_shut,
      lit_bracket]
    unfold quoted
    simp only [List.append_assoc, List.cons_append, List.nil_append]
  have h1 : (Scan.out l).run ['{', '\n'] = .out '{' := by
    rw [run_cons, step_open l '{' (by decide)]; decide
  have h2 : (Scan.out '"').run [',', '\n'] = .out ',' := by decide
  have h3 : (Scan.out ':').run ['[', ' '] = .out '[' := by decide
  have h4 : (Scan.out '"').run [' ', ']', ',', '\n'] = .out ',' := by decide
  have h5 : (Scan.out ':').run ['[', '\n'] = .out '[' := by decide
  rw [e]
  have h6 : (Scan.out '"').run [' ', ':', ' '] = .out ':' := by decide
  simp only [run_append, run_blanks (indent_blank _), h1, h2, h3, h4, h5, h6, run_quoted _ (quotable_keys "type" (by decide)),
    run_quoted _ (quotable_keys "name" (by decide)), run_quoted _ (quotable_keys "record" (by decide)),
    run_quoted _ (quotable_keys "namespace" (by decide)), run_quoted _ (quotable_keys "aliases" (by decide)),
    run_quoted _ (quotable_keys "fields" (by decide)), run_quoted _ hsn, run_quoted _ hpn, run_quoted _ hf, hbad, run_bad]

/-- Somewhere in the text of a record the automaton is outside quotes; it ends behind the brace or gives up. -/
private theorem run_record (name fp : Str) (fields : List (Str × AvroShape)) (h : (AvroType.record name fp fields).Named) (l : Char) :
    (Scan.out l).run (recordText name fp fields) = .bad ∨ (Scan.out l).run (recordText name fp fields) = .out '}' := by
  by_cases hs : (AvroType.record name fp fields).Simple
  · right
    obtain ⟨l', -, e⟩ := (writes_accepts (json_record name fp fields h hs)).1 l
    obtain ⟨t, ht⟩ : ∃ t, recordText name fp fields = t ++ ['}'] := by
      unfold recordText
      rw [lit_shut]
      exact ⟨_, rfl⟩
    rw [ht, run_append] at e ⊢
    cases hst : (Scan.out l).run t with
    | out x =>
      rw [hst] at e
      rw [run_cons, run_nil] at e ⊢
      by_cases hx : x = ','
      · subst hx
        simp [show (Scan.out ',').step '}' = .bad by decide] at e
      · exact step_close hx '}' (by decide)
    | str => rw [hst] at e; simp [show Scan.str.run ['}'] = .str by decide] at e
    | esc => rw [hst] at e; simp [show Scan.esc.run ['}'] = .bad by decide] at e
    | bad => rw [hst] at e; simp [run_bad] at e
  · exact .inl (run_record_bad name fp fields h hs l)

private theorem run_types (n : Nat) (ts : List AvroType) (hn : ∀ t ∈ ts, t.Named) (i : Nat) (hi : n + 1 = i + ts.length) (l : Char)
    (hbad : (∃ t ∈ ts, ¬ t.Simple) ∨ (ts.getLast? = some .other ∧ (l = ',' ∨ ∃ t ∈ ts, t.isRecord = true))) :
    (Scan.out l).run (textFrom n i ts) = .bad ∨ (Scan.out l).run (textFrom n i ts) = .out ',' := by
  induction ts generalizing i l with
  | nil => simp at hbad
  | cons t ts ih =>
    have ih := ih (fun x hx => hn x (by simp [hx])) (i + 1) (by simp at hi; omega)
    cases t with
    | other =>
      have e : textFrom n i (.other :: ts) = textFrom n (i + 1) ts := by simp [textFrom]
      rw [e]
      rcases hbad with ⟨t, ht, hs⟩ | ⟨h1, h2⟩
      · rcases List.mem_cons.mp ht with rfl | ht
        · exact absurd trivial hs
        · exact ih l (.inl ⟨t, ht, hs⟩)
      · cases ts with
        | nil =>
          right
          have : l = ',' := by
            rcases h2 with h2 | ⟨t, ht, h2⟩
            · exact h2
            · simp at ht; subst ht; simp [AvroType.isRecord] at h2
          subst this
          rfl
        | cons y ys =>
          refine ih l (.inr ⟨by simpa using h1, ?_⟩)
          rcases h2 with h2 | ⟨t, ht, h2⟩
          · exact .inl h2
          · rcases List.mem_cons.mp ht with rfl | ht
            · simp [AvroType.isRecord] at h2
            · exact .inr ⟨t, ht, h2⟩
    | record name fp fields =>
      have e : textFrom n i (.record name fp fields :: ts)
          = recordText name fp fields ++ (if i < n then ",".toList else []) ++ ['\n'] ++ textFrom n (i + 1) ts := rfl
      rw [e, run_append, run_append, run_append]
      have hN := hn _ (List.mem_cons_self)
      rcases run_record name fp fields hN l with h | h
      · left; rw [h, run_bad, run_bad, run_bad]
      · have hS : (AvroType.record name fp fields).Simple := by
          by_cases hS : (AvroType.record name fp fields).Simple
          · exact hS
          · rw [run_record_bad name fp fields hN hS l] at h; simp at h
        rw [h]
        cases ts with
        | nil =>
          exfalso
          rcases hbad with ⟨t, ht, hs⟩ | ⟨h1, h2⟩
          · simp at ht; subst ht; exact hs hS
          · simp at h1
        | cons y ys =>
          rw [if_pos (by simp at hi; omega), show ((Scan.out '}').run ",".toList).run ['\n'] = .out ',' by decide]
          refine ih ',' ?_
          rcases hbad with ⟨t, ht, hs⟩ | ⟨h1, h2⟩
          · rcases List.mem_cons.mp ht with rfl | ht
            · exact absurd hS hs
            · exact .inl ⟨t, ht, hs⟩
          · exact .inr ⟨by simpa using h1, .inl rfl⟩

/-- Otherwise the text is not JSON. -/
private theorem not_json (ts : List AvroType) (hn : ∀ t ∈ ts, t.Named) (h : ¬ ((∀ t ∈ ts, t.Simple) ∧ CommasOk ts)) :
    ¬ IsJson ("[".toList ++ avroText ts ++ "]".toList) := by
  intro hj
  have h1 := isJson_run hj '['
  rw [show "[".toList = ['['] from by decide, lit_bracket, run_append, run_append, show (Scan.out '[').run ['['] = .out '[' by decide] at h1
  have hbad : (∃ t ∈ ts, ¬ t.Simple) ∨ (ts.getLast? = some .other ∧ ('[' = ',' ∨ ∃ t ∈ ts, t.isRecord = true)) := by
    by_cases hs : ∀ t ∈ ts, t.Simple
    · right
      have hc : ¬ CommasOk ts := fun hc => h ⟨hs, hc⟩
      unfold CommasOk at hc
      have hc1 : ∃ t ∈ ts, t.isRecord = true := by
        simpa using fun h => hc (.inl h)
      have hc2 : ¬ ∃ t, ts.getLast? = some t ∧ t.isRecord = true := fun h => hc (.inr h)
      refine ⟨?_, .inr hc1⟩
      cases hg : ts.getLast? with
      | none =>
        obtain ⟨t, ht, -⟩ := hc1
        rw [List.getLast?_eq_none_iff] at hg
        simp [hg] at ht
      | some t =>
        cases t with
        | other => rfl
        | record => exact absurd ⟨_, hg, rfl⟩ hc2
    · left; simpa using hs
  rcases run_types ts.length ts hn 1 (by omega) '[' hbad with e | e
  · exact h1 (by rw [show avroText ts = textFrom ts.length 1 ts from rfl, e, run_bad])
  · exact h1 (by rw [show avroText ts = textFrom ts.length 1 ts from rfl, e]; decide)

/-- **C64, partial.** Let all names be such that they can be quoted and types be such that they need quotes.  The text, put in
brackets, is JSON exactly if no field has a container type and the last type is a class (or there is no class at all); and then
it is the array of the records the classes should become. -/
theorem C64_avro_json_partial (fp : Str) (payload : List Node) (ts : List TypeInfo) (as : List AvroType) (more : List Node)
    (c : Cursor) (hl : ts.length = as.length) (h : ∀ p ∈ ts.zip as, Says p.1 p.2)
    (hc : c.cur = some (envelopeNode fp payload [ts] more)) (hn : ∀ a ∈ as, a.Named) :
    ∃ t, (dumpSchema .avro c).1 = .ok t
      ∧ (IsJson ("[".toList ++ t ++ "]".toList) ↔ (∀ a ∈ as, a.Simple) ∧ CommasOk as)
      ∧ ((∀ a ∈ as, a.Simple) ∧ CommasOk as → JsonText (.value (avroJson as)) ("[".toList ++ t ++ "]".toList)) := by
  refine ⟨avroText as, C63_avro_text fp payload ts as more c hl h hc, ⟨fun hj => ?_, fun hs => ⟨_, json_avro as hn hs.1 hs.2⟩⟩,
    fun hs => json_avro as hn hs.1 hs.2⟩
  by_cases hs : (∀ a ∈ as, a.Simple) ∧ CommasOk as
  · exact hs
  · exact absurd hj (not_json as hn hs)

/-- **C64 for one class**: without containers the text is the record as it stands. -/
theorem C64_one_class_partial (fp : Str) (payload : List Node) (t : TypeInfo) (name tfp : Str) (fields : List (Str × AvroShape))
    (more : List Node) (c : Cursor) (h : Says t (.record name tfp fields)) (hc : c.cur = some (envelopeNode fp payload [[t]] more))
    (hn : (AvroType.record name tfp fields).Named) (hs : (AvroType.record name tfp fields).Simple) :
    ∃ x, (dumpSchema .avro c).1 = .ok x
      ∧ JsonText (.value (record name tfp (fields.map fun f => (f.1, f.2.render)))) x := by
  refine ⟨_, C63_avro_text fp payload [t] [.record name tfp fields] more c rfl (by simpa using h) hc, ?_⟩
  have := JsonText.after '\n' (by decide) (json_record name tfp fields hn hs)
  simpa [avroText] using this

/-! Examples. -/

private def exInt : FieldInfo := ⟨"a".toList, "int".toList, [], some "0".toList, none, true, false⟩
private def exList : FieldInfo := ⟨"b".toList, "*".toList, ["java.util.List<java.lang.Integer>".toList], none, none, true, false⟩
private def exMap : FieldInfo := ⟨"m".toList, "*".toList, ["java.util.Map<string, int[]>".toList], none, none, true, false⟩
private def shInt : AvroShape := .leaf "int".toList
private def shList : AvroShape := .list (.leaf "java.lang.Integer".toList)
private def shMap : AvroShape := .map 1 (.leaf "string".toList) (.array false (.leaf "int".toList))
private def exClass (fs : List FieldInfo) : TypeInfo := .composite "net.corda.C".toList none [] "f1".toList fs
private def exRecord (fs : List (Str × AvroShape)) : AvroType := .record "net.corda.C".toList "f1".toList fs
private def exEnum : TypeInfo := .restricted "E".toList none [] "list".toList "fe".toList []
private def exBlob (ts : List TypeInfo) : Cursor := Cursor.root (envelopeNode "f1".toList [] [ts] [])

private theorem has_int : exInt.Has shInt ∧ shInt.Ok ∧ shInt.render.Small :=
  ⟨.inr (by decide), leaf_ok (by decide) (by decide) (by decide) (by decide) (by decide) (by decide), by unfold Str.Small; decide⟩
private theorem has_list : exList.Has shList ∧ shList.Ok ∧ shList.render.Small :=
  ⟨.inl (by decide), leaf_ok (by decide) (by decide) (by decide) (by decide) (by decide) (by decide), by unfold Str.Small; decide⟩
private theorem has_map : exMap.Has shMap ∧ shMap.Ok ∧ shMap.render.Small :=
  ⟨.inl (by decide), ⟨leaf_ok (by decide) (by decide) (by decide) (by decide) (by decide) (by decide),
    leaf_ok (by decide) (by decide) (by decide) (by decide) (by decide) (by decide)⟩, by unfold Str.Small; decide⟩

private theorem small_name : Str.Small "net.corda.C".toList := by unfold Str.Small; decide
private theorem says_int : Says (exClass [exInt]) (exRecord [("a".toList, shInt)]) :=
  .composite (shapes := [shInt]) rfl (by simpa using has_int) small_name
private theorem says_list : Says (exClass [exInt, exList]) (exRecord [("a".toList, shInt), ("b".toList, shList)]) :=
  .composite (shapes := [shInt, shList]) rfl (by simpa using ⟨has_int, has_list⟩) small_name
private theorem says_map : Says (exClass [exMap]) (exRecord [("m".toList, shMap)]) :=
  .composite (shapes := [shMap]) rfl (by simpa using has_map) small_name

private theorem named_leaf (n : Str) (h1 : ∀ c ∈ n, PlainChar c) (h2 : ∃ c ∈ n, c ∉ bareChars ∧ ¬ Blank c) : (AvroShape.leaf n).Named :=
  ⟨h1, h2⟩
private theorem named_int : shInt.Named := named_leaf _ (by decide) (by decide)
private theorem named_list : shList.Named := named_leaf _ (by decide) (by decide)
private theorem named_map : shMap.Named := ⟨named_leaf _ (by decide) (by decide), named_leaf _ (by decide) (by decide)⟩
private theorem named_record (fs : List (Str × AvroShape)) (h : ∀ f ∈ fs, Quotable f.1 ∧ f.2.Named) : (exRecord fs).Named :=
  ⟨by unfold Quotable; decide, by unfold Quotable; decide, h⟩

/-- Two classes: the text, spelled out. -/
example : (dumpSchema .avro (exBlob [exClass [exInt], exClass [exInt, exList]])).1 = .ok
    ("{\n  \"type\" : \"record\",\n  \"name\" : \"C\",\n  \"namespace\" : \"net.corda\",\n  \"aliases\" : [ \"f1\" ],\n".toList
      ++ "  \"fields\" : [\n    {\n      \"name\" : \"a\", \n      \"type\" : \"int\"\n    }\n  ]\n},\n".toList
      ++ "{\n  \"type\" : \"record\",\n  \"name\" : \"C\",\n  \"namespace\" : \"net.corda\",\n  \"aliases\" : [ \"f1\" ],\n".toList
      ++ "  \"fields\" : [\n    {\n      \"name\" : \"a\", \n      \"type\" : \"int\"\n    },\n".toList
      ++ "    {\n      \"name\" : \"b\", \n      \"type\" : \"array\",\n      \"items\" : int\n    }\n  ]\n}\n".toList) := by
  rw [C63_avro_text "f1".toList [] [exClass [exInt], exClass [exInt, exList]]
    [exRecord [("a".toList, shInt)], exRecord [("a".toList, shInt), ("b".toList, shList)]] [] _ rfl
    (by simpa using ⟨says_int, says_list⟩) rfl]
  decide +kernel

/-- Two classes without containers: JSON. -/
example : ∃ t, (dumpSchema .avro (exBlob [exEnum, exClass [exInt], exClass [exInt]])).1 = .ok t
    ∧ IsJson ("[".toList ++ t ++ "]".toList) := by
  have n := named_record [("a".toList, shInt)] (by simpa using ⟨by unfold Quotable; decide, named_int⟩)
  have s : (exRecord [("a".toList, shInt)]).Simple := by simp [exRecord, AvroType.Simple, shInt, AvroShape.isLeaf]
  obtain ⟨t, h1, h2, -⟩ := C64_avro_json_partial "f1".toList [] [exEnum, exClass [exInt], exClass [exInt]]
    [.other, exRecord [("a".toList, shInt)], exRecord [("a".toList, shInt)]] [] (exBlob [exEnum, exClass [exInt], exClass [exInt]]) rfl
    (by simpa using ⟨.restricted, says_int⟩) rfl (by simpa using ⟨trivial, n⟩)
  exact ⟨t, h1, h2.mpr ⟨by simpa using ⟨trivial, s⟩, .inr ⟨_, rfl, rfl⟩⟩⟩

/-- **C64 is false for a class with a list** (here of integers): the type of the items is not quoted. -/
theorem C64_list_violated : ∃ t, (dumpSchema .avro (exBlob [exClass [exInt, exList]])).1 = .ok t
    ∧ ¬ IsJson ("[".toList ++ t ++ "]".toList) := by
  have n := named_record [("a".toList, shInt), ("b".toList, shList)]
    (by simpa using ⟨⟨by unfold Quotable; decide, named_int⟩, ⟨by unfold Quotable; decide, named_list⟩⟩)
  obtain ⟨t, h1, h2, -⟩ := C64_avro_json_partial "f1".toList [] [exClass [exInt, exList]]
    [exRecord [("a".toList, shInt), ("b".toList, shList)]] [] (exBlob [exClass [exInt, exList]]) rfl
    (by simpa using says_list) rfl (by simpa using n)
  refine ⟨t, h1, fun h => ?_⟩
  have := (h2.mp h).1 _ (List.mem_singleton.mpr rfl) ("b".toList, shList) (by simp)
  simp [shList, AvroShape.isLeaf] at this

/-- **C64 is false for a class with a map**: a quote is missing. -/
theorem C64_map_violated : ∃ t, (dumpSchema .avro (exBlob [exClass [exMap]])).1 = .ok t
    ∧ ¬ IsJson ("[".toList ++ t ++ "]".toList) := by
  have n := named_record [("m".toList, shMap)] (by simpa using ⟨by unfold Quotable; decide, named_map⟩)
  obtain ⟨t, h1, h2, -⟩ := C64_avro_json_partial "f1".toList [] [exClass [exMap]]
    [exRecord [("m".toList, shMap)]] [] (exBlob [exClass [exMap]]) rfl (by simpa using says_map) rfl (by simpa using n)
  refine ⟨t, h1, fun h => ?_⟩
  have := (h2.mp h).1 _ (List.mem_singleton.mpr rfl) ("m".toList, shMap) (by simp)
  simp [shMap, AvroShape.isLeaf] at this

/-- **C64 is false if the last type is an enumeration or a container**: a comma is left over. -/
theorem C64_comma_violated : ∃ t, (dumpSchema .avro (exBlob [exClass [exInt], exEnum])).1 = .ok t
    ∧ ¬ IsJson ("[".toList ++ t ++ "]".toList) := by
  have n := named_record [("a".toList, shInt)] (by simpa using ⟨by unfold Quotable; decide, named_int⟩)
  obtain ⟨t, h1, h2, -⟩ := C64_avro_json_partial "f1".toList [] [exClass [exInt], exEnum]
    [exRecord [("a".toList, shInt)], .other] [] (exBlob [exClass [exInt], exEnum]) rfl
    (by simpa using ⟨says_int, .restricted⟩) rfl (by simpa using ⟨n, trivial⟩)
  refine ⟨t, h1, fun h => ?_⟩
  rcases (h2.mp h).2 with h | ⟨t, h, h'⟩
  · have := h _ (List.mem_cons_self)
    simp [exRecord, AvroType.isRecord] at this
  · simp at h; subst h; simp [AvroType.isRecord] at h'

#print axioms C63_avro_text
#print axioms C64_avro_json_partial
#print axioms C64_one_class_partial
#print axioms C64_list_violated
#print axioms C64_map_violated
#print axioms C64_comma_violated

end Corda.Props
