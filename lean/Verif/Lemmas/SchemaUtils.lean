import Verif.Model.SchemaUtils
import Verif.Spec.TypeNames

/-
Helper lemmas about the type-name functions.
-/

namespace Corda
open Spec

private theorem lookup_map (l : List (String × String)) (s : Str) :
    (l.map (fun p => (p.1.toList, p.2.toList))).lookup s
      = (l.find? (fun p => p.1.toList == s)).map (fun p => p.2.toList) := by
  induction l with
  | nil => rfl
  | cons p l ih =>
    by_cases h : p.1.toList = s
    · simp [h]
    · have h' : (s == p.1.toList) = false := by simpa using fun e => h e.symm
      simp [List.lookup_cons, h', h, ih]

theorem unbox_eq_unboxed (s : Str) : unbox s = unboxed s := by
  have hb : boxedToUnboxed = boxed.map (fun p => (p.1.toList, p.2.toList)) := by decide
  unfold unbox unboxed
  rw [hb, lookup_map]
  cases boxed.find? (fun p => p.1.toList == s) <;> rfl

theorem findChar_append (a b : Str) (c : Char) (h : c ∉ a) : findChar c (a ++ c :: b) = a.length := by
  unfold findChar
  have : (a ++ c :: b).contains c = true := by simp
  rw [if_pos this, List.takeWhile_append_of_pos]
  · simp
  · intro d hd; simp; rintro rfl; exact h hd

theorem findChar_none (a : Str) (c : Char) (h : c ∉ a) : findChar c a = npos := by
  unfold findChar
  rw [if_neg]; simpa using h

/-- Scanning over a well-formed piece does not stop and comes back to the same nesting. -/
theorem scanComma_wf {b : Bool} {s : Str} (h : WF b s) (rest : Str) (n : Int)
    (hn : if b then 1 ≤ n else 0 ≤ n) : scanComma n (s ++ rest) = s.length + scanComma n rest := by
  induction h generalizing rest n with
  | nil b => simp
  | chr b c s h1 h2 h3 _ ih =>
    simp only [List.cons_append, scanComma, h1, h2, h3, if_false, false_and, ih rest n hn, List.length_cons]
    omega
  | comma s _ ih =>
    have : n ≠ 0 := by simp at hn; omega
    simp only [List.cons_append, scanComma, this, and_false, if_false, ih rest n hn, List.length_cons]
    simp; omega
  | brackets b s t _ _ ih1 ih2 =>
    have hn0 : 0 ≤ n := by cases b <;> simp at hn <;> omega
    simp only [List.cons_append, List.append_assoc, scanComma, if_true]
    rw [ih1 _ (n + 1) (by simp; omega)]
    simp only [scanComma]
    rw [if_neg (by decide), show n + 1 - 1 = n by omega, ih2 rest n hn]
    simp; omega

theorem listType_eq (outer t : Str) (h : '<' ∉ outer) (hs : Str.Small (outer ++ '<' :: (t ++ ['>']))) :
    listType (outer ++ '<' :: (t ++ ['>'])) = .ok (unbox outer, unbox t) := by
  have hlen : (outer ++ '<' :: (t ++ ['>'])).length = outer.length + t.length + 2 := by simp; omega
  unfold Str.Small at hs
  rw [hlen] at hs
  have h1 : addW outer.length 1 = outer.length + 1 := addW_of_lt (by unfold sizeMod; omega)
  have h2 : subW (outer.length + t.length + 2) outer.length = t.length + 2 := by
    rw [subW_of_le (by omega) (by unfold sizeMod; omega)]; omega
  have h3 : subW (t.length + 2) 2 = t.length := by
    rw [subW_of_le (by omega) (by unfold sizeMod; omega)]; omega
  simp only [listType, findChar_append _ _ _ h, hlen, h1, h2, h3, substr, Res.bind_eq]
  rw [if_neg (by omega), if_neg (by omega)]
  have hd : (outer ++ '<' :: (t ++ ['>'])).drop (outer.length + 1) = t ++ ['>'] := by
    rw [List.drop_append]; simp
  simp [hd]

theorem mapType_eq (outer k v sp1 sp2 : Str) (h : '<' ∉ outer)
    (hsp1 : ∀ c ∈ sp1, c = ' ') (hsp2 : ∀ c ∈ sp2, c = ' ')
    (hk : TypeName k) (hv : v.head? ≠ some ' ')
    (hs : Str.Small (outer ++ '<' :: (sp1 ++ k ++ ',' :: (sp2 ++ v ++ ['>'])))) :
    mapType (outer ++ '<' :: (sp1 ++ k ++ ',' :: (sp2 ++ v ++ ['>']))) = .ok (outer, unbox k, unbox v) := by
  have hlen : (outer ++ '<' :: (sp1 ++ k ++ ',' :: (sp2 ++ v ++ ['>']))).length
      = outer.length + sp1.length + k.length + sp2.length + v.length + 3 := by simp; omega
  unfold Str.Small at hs
  rw [hlen] at hs
  have h1 : addW outer.length 1 = outer.length + 1 := addW_of_lt (by unfold sizeMod; omega)
  have hd : (outer ++ '<' :: (sp1 ++ k ++ ',' :: (sp2 ++ v ++ ['>']))).drop (outer.length + 1)
      = sp1 ++ k ++ ',' :: (sp2 ++ v ++ ['>']) := by
    rw [List.drop_append]; simp
  have hwf : WF false (sp1 ++ k) := by
    clear hs hlen hd
    induction sp1 with
    | nil => exact hk.1
    | cons c sp ih =>
      have hc : c = ' ' := hsp1 c (by simp)
      subst hc
      exact .chr _ _ _ (by decide) (by decide) (by decide) (ih (fun c hc => hsp1 c (by simp [hc])))
  have hscan : scanComma 0 (sp1 ++ k ++ ',' :: (sp2 ++ v ++ ['>'])) = sp1.length + k.length := by
    rw [scanComma_wf hwf _ 0 (by simp)]; simp [scanComma]
  have trim : ∀ sp s : Str, (∀ c ∈ sp, c = ' ') → s.head? ≠ some ' ' → trimLeft (sp ++ s) = s := by
    intro sp s hsp hh
    unfold trimLeft
    rw [List.dropWhile_append_of_pos (by intro c hc; simp [hsp c hc])]
    cases s with
    | nil => rfl
    | cons c s => simp at hh; simp [hh]
  simp only [mapType, findChar_append _ _ _ h, hlen, h1, substr, Res.bind_eq, hd, hscan]
  have e1 : subW (outer.length + 1 + (sp1.length + k.length)) outer.length = 1 + (sp1.length + k.length) := by
    rw [subW_of_le (by omega) (by unfold sizeMod; omega)]; omega
  have e2 : subW (1 + (sp1.length + k.length)) 1 = (sp1 ++ k).length := by
    rw [subW_of_le (by omega) (by unfold sizeMod; omega)]; simp
  have e3 : addW (outer.length + 1 + (sp1.length + k.length)) 1 = outer.length + 2 + sp1.length + k.length := by
    rw [addW_of_lt (by unfold sizeMod; omega)]; omega
  have e4 : addW (outer.length + 1 + (sp1.length + k.length)) 2 = outer.length + 3 + sp1.length + k.length := by
    rw [addW_of_lt (by unfold sizeMod; omega)]; omega
  have e5 : subW (outer.length + sp1.length + k.length + sp2.length + v.length + 3)
      (outer.length + 3 + sp1.length + k.length) = (sp2 ++ v).length := by
    rw [subW_of_le (by omega) (by unfold sizeMod; omega)]; simp; omega
  simp only [e1, e2, e3, e4, e5]
  rw [if_neg (by omega), if_neg (by omega), if_neg (by omega)]
  have hd2 : (outer ++ '<' :: (sp1 ++ k ++ ',' :: (sp2 ++ v ++ ['>']))).drop
      (outer.length + 2 + sp1.length + k.length) = sp2 ++ v ++ ['>'] := by
    have : outer ++ '<' :: (sp1 ++ k ++ ',' :: (sp2 ++ v ++ ['>']))
        = (outer ++ '<' :: (sp1 ++ k ++ [','])) ++ (sp2 ++ v ++ ['>']) := by simp
    rw [this]
    apply List.drop_left'
    simp; omega
  have ht1 : (sp1 ++ k ++ ',' :: (sp2 ++ v ++ ['>'])).take (sp1 ++ k).length = sp1 ++ k := List.take_left' rfl
  have ht2 : (sp2 ++ v ++ ['>']).take (sp2 ++ v).length = sp2 ++ v := List.take_left' rfl
  simp only [Res.bind, hd2, ht1, ht2, trim sp1 k hsp1 hk.2, trim sp2 v hsp2 hv, Res.pure_eq]
  simp

/-! ### unboxing -/

theorem unboxed_cases (s : Str) :
    (∃ p ∈ boxed, p.1.toList = s ∧ unboxed s = p.2.toList) ∨
    ((∀ p ∈ boxed, p.1.toList ≠ s) ∧ unboxed s = s) := by
  unfold unboxed
  cases h : boxed.find? (fun p => p.1.toList == s) with
  | some p =>
    left
    exact ⟨p, List.mem_of_find?_eq_some h, by simpa using List.find?_some h, rfl⟩
  | none =>
    right
    refine ⟨?_, rfl⟩
    intro p hp
    have := List.find?_eq_none.mp h p hp
    simpa using this

theorem unboxed_length_le (s : Str) : (unboxed s).length ≤ s.length := by
  rcases unboxed_cases s with ⟨p, hp, rfl, h⟩ | ⟨-, h⟩ <;> rw [h]
  · revert p; decide
  · exact Nat.le_refl _

theorem unbox_length_le (s : Str) : (unbox s).length ≤ s.length := by
  rw [unbox_eq_unboxed]; exact unboxed_length_le s

theorem isList_unboxed_of_not (s : Str) (h : isList s = false) : isList (unboxed s) = false := by
  rcases unboxed_cases s with ⟨p, hp, -, h'⟩ | ⟨-, h'⟩ <;> rw [h']
  · clear h h'; revert p; decide
  · exact h

theorem isMap_unboxed_of_not (s : Str) (h : isMap s = false) : isMap (unboxed s) = false := by
  rcases unboxed_cases s with ⟨p, hp, -, h'⟩ | ⟨-, h'⟩ <;> rw [h']
  · clear h h'; revert p; decide
  · exact h

theorem unboxed_of_prefix (pre s : Str) (hpre : pre <+: s)
    (hb : ∀ p ∈ boxed, ¬ pre <+: p.1.toList) : unboxed s = s := by
  rcases unboxed_cases s with ⟨p, hp, h, -⟩ | ⟨-, h'⟩
  · exact absurd (h ▸ hpre) (hb p hp)
  · exact h'

/-! ### termination of `nestedGenericTypes` -/

theorem findChar_cases (c : Char) (s : Str) :
    (c ∉ s ∧ findChar c s = npos) ∨ (c ∈ s ∧ findChar c s < s.length) := by
  by_cases h : c ∈ s
  · right
    refine ⟨h, ?_⟩
    obtain ⟨a, b, rfl, ha⟩ := List.eq_append_cons_of_mem h
    rw [findChar_append a b c ha]; simp
  · left; exact ⟨h, findChar_none _ _ h⟩

theorem listType_short (s : Str) (hne : s ≠ []) (hs : s.Small) :
    ∃ a b, listType s = .ok (a, b) ∧ b.length < s.length := by
  unfold Str.Small at hs
  have hpos : 0 < s.length := List.length_pos_iff.mpr hne
  simp only [listType, substr, Res.bind_eq]
  rw [if_neg (by omega)]
  rcases findChar_cases '<' s with ⟨-, h⟩ | ⟨-, h⟩
  · rw [h]
    have e1 : addW npos 1 = 0 := by decide
    have e2 : subW s.length npos = s.length + 1 := by
      unfold subW npos sizeMod; omega
    have e3 : subW (s.length + 1) 2 = s.length - 1 := by
      rw [subW_of_le (by omega) (by unfold sizeMod; omega)]; omega
    rw [e1, e2, e3, if_neg (by omega)]
    refine ⟨_, _, rfl, Nat.lt_of_le_of_lt (unbox_length_le _) ?_⟩
    simp; omega
  · generalize findChar '<' s = p at *
    have e1 : addW p 1 = p + 1 := addW_of_lt (by unfold sizeMod; omega)
    rw [e1, if_neg (by omega)]
    refine ⟨_, _, rfl, Nat.lt_of_le_of_lt (unbox_length_le _) ?_⟩
    simp; omega

theorem scanComma_le (n : Int) (s : Str) : scanComma n s ≤ s.length := by
  induction s generalizing n with
  | nil => simp [scanComma]
  | cons c s ih =>
    simp only [scanComma, List.length_cons]
    have h1 := ih (n + 1); have h2 := ih (n - 1); have h3 := ih n
    split
    · omega
    · split
      · omega
      · split <;> omega

theorem trimLeft_length_le (s : Str) : (trimLeft s).length ≤ s.length :=
  List.IsSuffix.length_le (List.dropWhile_suffix _)

/-- `mapType` returns two strictly shorter names or throws. -/
theorem mapType_short (s : Str) (hs : s.Small) (hne : s ≠ []) :
    (mapType s).Throws ∨ ∃ a b c, mapType s = .ok (a, b, c) ∧ b.length < s.length ∧ c.length < s.length := by
  unfold Str.Small at hs
  have hpos : 0 < s.length := List.length_pos_iff.mpr hne
  simp only [mapType, substr, Res.bind_eq]
  rw [if_neg (by omega)]
  rcases findChar_cases '<' s with ⟨-, h⟩ | ⟨-, h⟩
  · rw [h]
    have e1 : addW npos 1 = 0 := by decide
    rw [e1, if_neg (by omega)]
    simp only [List.drop_zero, Nat.zero_add]
    have hle := scanComma_le 0 s
    generalize scanComma 0 s = i at *
    have e2 : subW i npos = i + 1 := by unfold subW npos sizeMod; omega
    have e3 : subW (i + 1) 1 = i := by
      rw [subW_of_le (by omega) (by unfold sizeMod; omega)]; omega
    have e4 : addW i 1 = i + 1 := addW_of_lt (by unfold sizeMod; omega)
    rw [e2, e3, e4]
    by_cases hi : s.length < i + 1
    · left; simp [hi, Res.Throws]
    · right
      rw [if_neg hi]
      refine ⟨_, _, _, rfl, ?_, ?_⟩
      · refine Nat.lt_of_le_of_lt (Nat.le_trans (unbox_length_le _) (trimLeft_length_le _)) ?_
        simp; omega
      · refine Nat.lt_of_le_of_lt (Nat.le_trans (unbox_length_le _) (trimLeft_length_le _)) ?_
        simp; omega
  · generalize findChar '<' s = p at *
    have e1 : addW p 1 = p + 1 := addW_of_lt (by unfold sizeMod; omega)
    rw [e1, if_neg (by omega)]
    have hle := scanComma_le 0 (s.drop (p + 1))
    generalize scanComma 0 (s.drop (p + 1)) = i at *
    simp at hle
    have e4 : addW (p + 1 + i) 1 = p + 1 + i + 1 := addW_of_lt (by unfold sizeMod; omega)
    rw [e4]
    by_cases hi : s.length < p + 1 + i + 1
    · left; simp [hi, Res.Throws]
    · right
      rw [if_neg hi]
      refine ⟨_, _, _, rfl, ?_, ?_⟩
      · refine Nat.lt_of_le_of_lt (Nat.le_trans (unbox_length_le _) (trimLeft_length_le _)) ?_
        simp; omega
      · refine Nat.lt_of_le_of_lt (Nat.le_trans (unbox_length_le _) (trimLeft_length_le _)) ?_
        simp; omega

theorem isList_ne_nil {s : Str} (h : isList s = true) : s ≠ [] := by
  rintro rfl; revert h; decide

theorem isMap_ne_nil {s : Str} (h : isMap s = true) : s ≠ [] := by
  rintro rfl; revert h; decide

theorem Str.Small.of_lt {s t : Str} (hs : s.Small) (h : t.length < s.length) : t.Small :=
  Nat.lt_trans h hs

theorem nested_fuel_enough (n : Nat) (s : Str) (hs : s.Small) (hn : s.length < n) : (nestedGo n s).Defined := by
  induction n generalizing s with
  | zero => omega
  | succ n ih =>
    unfold nestedGo
    by_cases hl : isList s = true
    · rw [if_pos hl]
      obtain ⟨a, b, e, hb⟩ := listType_short s (isList_ne_nil hl) hs
      have := ih b (hs.of_lt hb) (by omega)
      simp only [e, Res.bind_eq, Res.bind]
      cases h : nestedGo n b <;> simp_all [Res.Defined]
    · rw [if_neg hl]
      by_cases hm : isMap s = true
      · rw [if_pos hm]
        rcases mapType_short s hs (isMap_ne_nil hm) with h | ⟨a, b, c, e, hb, hc⟩
        · cases h' : mapType s <;> simp_all [Res.Throws, Res.Defined]
        · have h1 := ih b (hs.of_lt hb) (by omega)
          have h2 := ih c (hs.of_lt hc) (by omega)
          simp only [e, Res.bind_eq, Res.bind]
          cases h : nestedGo n b <;> cases h' : nestedGo n c <;> simp_all [Res.Defined]
      · rw [if_neg hm]; simp [Res.Defined]

/-! ### type trees -/

theorem wf_append {b : Bool} {s t : Str} (hs : WF b s) (ht : WF b t) : WF b (s ++ t) := by
  induction hs with
  | nil => simpa
  | chr b c s h1 h2 h3 _ ih => exact .chr _ _ _ h1 h2 h3 (ih ht)
  | comma s _ ih => exact .comma _ (ih ht)
  | brackets b s u h1 _ _ ih2 => simpa using WF.brackets b s (u ++ t) h1 (ih2 ht)

theorem wf_inside {b : Bool} {s : Str} (hs : WF b s) : WF true s := by
  induction hs with
  | nil => exact .nil _
  | chr b c s h1 h2 h3 _ ih => exact .chr _ _ _ h1 h2 h3 ih
  | comma s _ ih => exact .comma _ ih
  | brackets b s u h1 _ _ ih2 => exact .brackets _ _ _ h1 ih2

theorem wf_plain {b : Bool} (s : Str) (h : ∀ c ∈ s, c ≠ '<' ∧ c ≠ '>' ∧ c ≠ ',') : WF b s := by
  induction s with
  | nil => exact .nil _
  | cons c s ih =>
    obtain ⟨h1, h2, h3⟩ := h c (by simp)
    exact .chr _ _ _ h1 h2 h3 (ih (fun c hc => h c (by simp [hc])))

/-- What may stand between key and value: a comma followed by any number of blanks. -/
def IsSep (sep : Str) : Prop := ∃ n, sep = ',' :: List.replicate n ' '

theorem list_render (t : Ty) (sep : Str) :
    (Ty.list t).render sep = "java.util.List".toList ++ '<' :: (t.render sep ++ ['>']) := by
  simp only [Ty.render]
  rw [show listOpen = "java.util.List".toList ++ ['<'] from by decide]
  simp

theorem map_render (k v : Ty) (n : Nat) :
    (Ty.map k v).render (',' :: List.replicate n ' ') = "java.util.Map".toList
      ++ '<' :: (([] : Str) ++ k.render (',' :: List.replicate n ' ')
      ++ ',' :: (List.replicate n ' ' ++ v.render (',' :: List.replicate n ' ') ++ ['>'])) := by
  simp only [Ty.render]
  rw [show mapOpen = "java.util.Map".toList ++ ['<'] from by decide]
  simp

theorem render_typeName (t : Ty) (n : Nat) (h : t.Ok) :
    TypeName (t.render (',' :: List.replicate n ' ')) := by
  induction t with
  | leaf name => exact h.1
  | list t ih =>
    rw [list_render]
    refine ⟨wf_append (wf_plain _ (by decide)) ?_, by simp⟩
    simpa using WF.brackets false _ [] (wf_inside (ih h).1) (.nil _)
  | map k v ih1 ih2 =>
    rw [map_render]
    refine ⟨wf_append (wf_plain _ (by decide)) ?_, by simp⟩
    have hsp : WF true (List.replicate n ' ') :=
      wf_plain _ (by intro c hc; rw [List.eq_of_mem_replicate hc]; decide)
    have := WF.brackets false
      (k.render (',' :: List.replicate n ' ') ++ ',' :: (List.replicate n ' ' ++ v.render (',' :: List.replicate n ' '))) []
      (wf_append (wf_inside (ih1 h.1).1) (.comma _ (wf_append hsp (wf_inside (ih2 h.2).1)))) (.nil _)
    simpa using this

theorem isList_iff (s : Str) : isList s = true ↔ "java.util.List".toList <+: s := by
  unfold isList; exact List.isPrefixOf_iff_prefix

theorem isMap_iff (s : Str) : isMap s = true ↔ "java.util.Map".toList <+: s := by
  unfold isMap; exact List.isPrefixOf_iff_prefix

theorem render_not_boxed (t : Ty) (sep : Str) (ht : ∀ n, t ≠ .leaf n) :
    unboxed (t.render sep) = t.render sep := by
  apply unboxed_of_prefix "java.util".toList
  · cases t with
    | leaf n => exact absurd rfl (ht n)
    | list t =>
      rw [list_render]
      exact List.IsPrefix.trans (by decide) (List.prefix_append _ _)
    | map k v =>
      simp only [Ty.render, List.append_assoc]
      exact List.IsPrefix.trans (l₂ := mapOpen) (by decide) (List.prefix_append _ _)
  · decide

/-- The recursion on a rendered type tree, started from the name or from its unboxed form. -/
theorem nestedGo_render (k : Nat) (t : Ty) (h : t.Ok) (fuel : Nat)
    (hs : Str.Small (t.render (',' :: List.replicate k ' ')))
    (hf : (t.render (',' :: List.replicate k ' ')).length < fuel) :
    nestedGo fuel (t.render (',' :: List.replicate k ' '))
        = .ok (t.render (',' :: List.replicate k ' ') :: t.inner (',' :: List.replicate k ' '))
    ∧ nestedGo fuel (unboxed (t.render (',' :: List.replicate k ' ')))
        = .ok (unboxed (t.render (',' :: List.replicate k ' ')) :: t.inner (',' :: List.replicate k ' ')) := by
  generalize hsep : (',' :: List.replicate k ' ' : Str) = sep at *
  induction t generalizing fuel with
  | leaf n =>
    have h1 : isList n = false := by
      rw [← Bool.not_eq_true, isList_iff]; exact h.2.1
    have h2 : isMap n = false := by
      rw [← Bool.not_eq_true, isMap_iff]; exact h.2.2
    cases fuel with
    | zero => omega
    | succ fuel =>
      simp [nestedGo, Ty.render, Ty.inner, h1, h2, isList_unboxed_of_not, isMap_unboxed_of_not]
  | list t ih =>
    rw [render_not_boxed (.list t) sep (by simp)]
    refine and_self_iff.mpr ?_
    cases fuel with
    | zero => omega
    | succ fuel =>
      have hl : isList ((Ty.list t).render sep) = true := by
        rw [isList_iff, list_render]; exact List.prefix_append _ _
      have hlen : ((Ty.list t).render sep).length = (t.render sep).length + 16 := by
        rw [list_render]; simp
      have e := listType_eq "java.util.List".toList (t.render sep) (by decide) (by rw [← list_render]; exact hs)
      rw [← list_render] at e
      rw [nestedGo, if_pos hl, e]
      have := (ih h fuel (hs.of_lt (by omega)) (by omega)).2
      simp [unbox_eq_unboxed, this, Ty.inner]
  | map a b iha ihb =>
    rw [render_not_boxed (.map a b) sep (by simp)]
    refine and_self_iff.mpr ?_
    cases fuel with
    | zero => omega
    | succ fuel =>
      subst hsep
      have hm : isMap ((Ty.map a b).render (',' :: List.replicate k ' ')) = true := by
        rw [isMap_iff, map_render]; exact List.prefix_append _ _
      have hl : isList ((Ty.map a b).render (',' :: List.replicate k ' ')) = false := by
        rw [map_render]; rfl
      have hlen : ((Ty.map a b).render (',' :: List.replicate k ' ')).length
          = (a.render (',' :: List.replicate k ' ')).length + (b.render (',' :: List.replicate k ' ')).length + k + 16 := by
        rw [map_render]; simp; omega
      have e := mapType_eq "java.util.Map".toList (a.render (',' :: List.replicate k ' '))
        (b.render (',' :: List.replicate k ' ')) [] (List.replicate k ' ') (by decide) (by simp)
        (by intro c hc; exact List.eq_of_mem_replicate hc) (render_typeName a k h.1) (render_typeName b k h.2).2
        (by rw [← map_render]; exact hs)
      rw [← map_render] at e
      rw [nestedGo, hl, if_neg (by decide), if_pos hm, e]
      have h1 := (iha h.1 fuel (hs.of_lt (by omega)) (by omega)).2
      have h2 := (ihb h.2 fuel (hs.of_lt (by omega)) (by omega)).2
      simp [unbox_eq_unboxed, h1, h2, Ty.inner]

/-! ### array suffix -/

theorem equalFromEnd_prefix (s p : Str) (h : p.length ≤ s.length) :
    equalFromEnd s p = .ok (p.isPrefixOf s) := by
  induction p generalizing s with
  | nil => simp [equalFromEnd]
  | cons a p ih =>
    cases s with
    | nil => simp at h
    | cons c s =>
      simp only [equalFromEnd]
      by_cases hc : c = a
      · simp [hc, ih s (by simpa using h)]
      · have : (a == c) = false := by simpa using fun e => hc e.symm
        simp [hc, List.isPrefixOf, this]

end Corda
