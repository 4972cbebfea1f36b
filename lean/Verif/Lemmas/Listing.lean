import Verif.Model.Listing
import Verif.Spec.Listing
import Verif.Lemmas.Lines

/-
Cutting printed text into its lines.
-/

namespace Corda
open Spec

theorem linesOf_ne_nil (s : Str) : linesOf s ≠ [] := by
  cases s with
  | nil => simp [linesOf]
  | cons c cs =>
    simp only [linesOf]
    split
    · simp
    · split <;> simp

/-- A line without line feeds, ended by one. -/
theorem linesOf_line {a : Str} (h : '\n' ∉ a) (t : Str) : linesOf (a ++ '\n' :: t) = a :: linesOf t := by
  induction a with
  | nil => simp [linesOf]
  | cons c a ih =>
    simp only [List.mem_cons, not_or] at h
    simp only [List.cons_append, linesOf, if_neg (Ne.symm h.1), ih h.2]

theorem linesOf_last {a : Str} (h : '\n' ∉ a) : linesOf a = [a] := by
  induction a with
  | nil => rfl
  | cons c a ih =>
    simp only [List.mem_cons, not_or] at h
    simp only [linesOf, if_neg (Ne.symm h.1), ih h.2]

theorem linesOf_lines {ls : List Str} (h : ∀ l ∈ ls, '\n' ∉ l) (t : Str) :
    linesOf (ls.flatMap (fun l => l ++ ['\n']) ++ t) = ls ++ linesOf t := by
  induction ls with
  | nil => rfl
  | cons l ls ih =>
    have e : (l :: ls).flatMap (fun l => l ++ ['\n']) ++ t
        = l ++ '\n' :: (ls.flatMap (fun l => l ++ ['\n']) ++ t) := by simp
    rw [e, linesOf_line (h l (by simp)), ih (fun x hx => h x (by simp [hx]))]
    rfl

theorem after_self (h t : Str) : after h (h ++ t) = some t := by
  simp [after]

theorem after_bullet_level (t : Str) : after "level ".toList ("    * ".toList ++ t) = none := by
  simp [after]

/-- The lines of the bullets. -/
theorem readLevels_bullets (names : List Str) (rest : List Str) :
    readLevels (names.map (fun n => "    * ".toList ++ n) ++ rest)
      = (names ++ (readLevels rest).1, (readLevels rest).2) := by
  induction names with
  | nil => rfl
  | cons n ns ih =>
    simp only [List.map_cons, List.cons_append, readLevels, after_bullet_level, after_self, ih]

theorem natStr_oneLine (n : Nat) : '\n' ∉ natStr n := dec_oneLine n

theorem linesOf_printLevel (idx : Nat) (names : List Str) (h : ∀ n ∈ names, OneLine n) (t : Str) :
    linesOf (printLevel idx names ++ t)
      = (levelWord ++ natStr idx) :: (names.map (fun n => bulletWord ++ n) ++ [] :: linesOf t) := by
  have e : printLevel idx names ++ t = (levelWord ++ natStr idx) ++ '\n' ::
      ((names.map (fun n => bulletWord ++ n)).flatMap (fun l => l ++ ['\n']) ++ ([] ++ '\n' :: t)) := by
    simp [printLevel, List.flatMap_map]
  rw [e, linesOf_line, linesOf_lines, linesOf_line (by simp)]
  · intro l hl
    obtain ⟨n, hn, rfl⟩ := List.mem_map.mp hl
    rw [List.mem_append, not_or]
    exact ⟨by decide, h n hn⟩
  · rw [List.mem_append, not_or]
    exact ⟨by decide, natStr_oneLine idx⟩

theorem readLevels_printLevel (idx : Nat) (names : List Str) (h : ∀ n ∈ names, OneLine n) (t : Str) :
    readLevels (linesOf (printLevel idx names ++ t))
      = ([], (dec idx, names ++ (readLevels (linesOf t)).1) :: (readLevels (linesOf t)).2) := by
  rw [linesOf_printLevel idx names h]
  simp only [readLevels, levelWord, after_self]
  have := readLevels_bullets names ([] :: linesOf t)
  rw [show bulletWord = "    * ".toList from rfl, this]
  have e : readLevels ([] :: linesOf t) = readLevels (linesOf t) := by
    simp [readLevels, after]
  rw [e]
  rfl

theorem readLevels_from (idx : Nat) (ls : List (List Str)) (h : ∀ l ∈ ls, ∀ n ∈ l, OneLine n) :
    readLevels (linesOf (printLevelsFrom idx ls))
      = ([], (ls.zipIdx (idx + 1)).map fun p => (dec p.2, p.1)) := by
  induction ls generalizing idx with
  | nil => simp [printLevelsFrom, linesOf, readLevels, after]
  | cons l ls ih =>
    rw [printLevelsFrom, readLevels_printLevel _ _ (h l (by simp)), ih _ (fun x hx => h x (by simp [hx]))]
    simp [List.zipIdx_cons]

end Corda
