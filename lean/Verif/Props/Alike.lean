import Verif.Lemmas.Alike
import Verif.Props.Readers

/-
C84: the text shown determines the value.
-/

namespace Corda.Props
open Corda Corda.Prog Corda.Spec

private theorem zip_map {α β : Type} (f : α → β) : ∀ (as bs : List α), as.length = bs.length →
    (∀ p ∈ as.zip bs, f p.1 = f p.2) → as.map f = bs.map f
  | [], [], _, _ => rfl
  | [], _ :: _, h, _ => by simp at h
  | _ :: _, [], h, _ => by simp at h
  | a :: as, b :: bs, h, hp => by
    rw [List.map_cons, List.map_cons, hp (a, b) (by simp), zip_map f as bs (by simpa using h) fun p m => hp p (by simp [m])]

/-- Values that are alike have the same text. -/
theorem alike_shown {v w : PVal} (h : Alike v w) : shown v = shown w := by
  induction h with
  | int n => rfl
  | long n => rfl
  | double a b h => rw [shown, shown, h]
  | bool b => rfl
  | str s => rfl
  | bin s t h => rw [shown, shown, h]
  | null => rfl
  | enum d c o p => rw [shown, shown]
  | list d es fs hl _ ih => rw [shown, shown, allOf, allOf, zip_map shown es fs hl ih]
  | map d es fs hl _ _ ih1 ih2 =>
    rw [shown, shown, entriesOf, entriesOf, zip_map _ es fs hl fun p hp => by rw [ih1 p hp, ih2 p hp]]
  | obj d ns vs ws hl _ ih =>
    have : ∀ (ns : List Str) (vs ws : List PVal), vs.length = ws.length → (∀ p ∈ vs.zip ws, shown p.1 = shown p.2) →
        shownNamed ns vs = shownNamed ns ws := by
      intro ns
      induction ns with
      | nil => intro vs ws _ _; cases vs <;> cases ws <;> rfl
      | cons n ns ihn =>
        intro vs ws hl hp
        cases vs with
        | nil => cases ws <;> simp at hl; rfl
        | cons v vs =>
          cases ws with
          | nil => simp at hl
          | cons w ws =>
            rw [shownNamed, shownNamed, hp (v, w) (by simp), ihn vs ws (by simpa using hl) fun p m => hp p (by simp [m])]
    rw [shown, shown, this ns vs ws hl ih]

/-- **C84, what does hold.** For types with names of their own and two values of one type in which no text contains a
quotation mark and the constants of enumerations are words: the texts shown are the same exactly if the values are
alike.  Missing: texts with quotation marks and constants with blanks or commas. -/
theorem C84_text_partial (ts : List TypeNotation) (hp : ∀ t ∈ ts, PlainType t) (hn : SameNames ts) (t : Str) (v w : PVal)
    (hv : Typed ts t v) (hw : Typed ts t w) (lv : Legible v) (lw : Legible w) : shown v = shown w ↔ Alike v w :=
  ⟨fun h => (shown_apart ⟨fun t ht => (hp t ht).1, hn⟩ hv hw lv lw .nil .nil (by rw [h])).1, alike_shown⟩

private theorem around_inj {a x y b : Str} (h : a ++ x ++ b = a ++ y ++ b) : x = y :=
  List.append_cancel_left (List.append_cancel_right h)

private theorem parsedText_inj {v w : PVal} (h : parsedText v = parsedText w) : shown v = shown w := around_inj h

/-- **C84, for blobs**: two blobs with the same schema and payloads of the same type that the inspector shows alike have
payloads that are alike. -/
theorem C84_inspect_partial (leftFirst : Bool) (ds : List TypeDesc) (ts : List TypeNotation)
    (hm : ds.map TypeDesc.make = ts.map Res.ok) (hs : Sound leftFirst ts) (ls : List (List TypeNotation))
    (hl : insertAllR TypeNotation.dependsOn ts = .ok ls) (ho : Ordered [publicKeyType] ls.flatten)
    (t : Str) (v w : PVal) (hv : Typed ts t v) (hw : Typed ts t w) (dv dw : Str) (hdv : descriptorOf v = some dv)
    (hdw : descriptorOf w = some dw) (lv : Legible v) (lw : Legible w) (n m : Node)
    (hn : envelopeProton [valTree v] (schemaProton (ds.map TypeDesc.proton)) = [n])
    (hm' : envelopeProton [valTree w] (schemaProton (ds.map TypeDesc.proton)) = [m])
    (h : (inspect leftFirst (Cursor.root n)).1 = (inspect leftFirst (Cursor.root m)).1) : Alike v w := by
  rw [C57_inspect leftFirst ds ts hm hs ls hl ho t v hv dv hdv n hn (Cursor.root n) rfl,
    C57_inspect leftFirst ds ts hm hs ls hl ho t w hw dw hdw m hm' (Cursor.root m) rfl] at h
  exact (C84_text_partial ts hs.plain hs.names t v w hv hw lv lw).mp (parsedText_inj (Res.ok.inj h))

private theorem zip_eq {α : Type} : ∀ (as bs : List α), as.length = bs.length → (∀ p ∈ as.zip bs, p.1 = p.2) → as = bs := by
  intro as bs h hp
  simpa using zip_map id as bs h hp

/-- **C84, exactly**: a value without doubles, binary values and enumeration constants is like no other. -/
theorem C84_exact (v w : PVal) (h : Alike v w) : Exact v → v = w := by
  induction h with
  | int n => exact fun _ => rfl
  | long n => exact fun _ => rfl
  | double a b h => intro e; cases e
  | bool b => exact fun _ => rfl
  | str s => exact fun _ => rfl
  | bin s t h => intro e; cases e
  | null => exact fun _ => rfl
  | enum d c o p => intro e; cases e
  | obj d ns vs ws hl _ ih =>
    intro e
    cases e with
    | obj _ _ _ e => rw [zip_eq vs ws hl fun p hp => ih p hp (e _ (List.of_mem_zip hp).1)]
  | list d vs ws hl _ ih =>
    intro e
    cases e with
    | list _ _ e => rw [zip_eq vs ws hl fun p hp => ih p hp (e _ (List.of_mem_zip hp).1)]
  | map d vs ws hl _ _ ih1 ih2 =>
    intro e
    cases e with
    | map _ _ e1 e2 =>
      rw [zip_eq vs ws hl fun p hp => ?_]
      have m := (List.of_mem_zip hp).1
      have h1 := ih1 p hp (e1 _ m)
      have h2 := ih2 p hp (e2 _ m)
      obtain ⟨⟨a, b⟩, ⟨c, d⟩⟩ := p
      simp only [PEntry.key, PEntry.value] at h1 h2
      rw [h1, h2]

/-- A list of one text that contains quotation marks. -/
def oneText : PVal := .list "fpL".toList [.str "a\", \"b".toList]
/-- A list of two texts. -/
def twoTexts : PVal := .list "fpL".toList [.str "a".toList, .str "b".toList]

/-- **C84 fails for texts with quotation marks**, which are not escaped: a list of one text is shown like a list of
two. -/
theorem C84_text_violated :
    oneText ≠ twoTexts
    ∧ (inspect true (blobOf [textListT] (valTree oneText))).1 = .ok "{ Parsed : [ \"a\", \"b\" ] }".toList
    ∧ (inspect true (blobOf [textListT] (valTree twoTexts))).1 = .ok "{ Parsed : [ \"a\", \"b\" ] }".toList := by
  refine ⟨?_, by decide +kernel, by decide +kernel⟩
  rw [oneText, twoTexts]
  intro h
  injection h with _ h
  simp at h

example : Legible twoTexts := .list _ _ (by
  intro v hv
  simp only [List.mem_cons, List.not_mem_nil, or_false] at hv
  rcases hv with rfl | rfl <;> exact .str _ (by decide +kernel))
example : Exact twoTexts := .list _ _ (by
  intro v hv
  simp only [List.mem_cons, List.not_mem_nil, or_false] at hv
  rcases hv with rfl | rfl <;> exact .str _)
example : Alike (.list [] [.double 0, .enum [] "A".toList 1]) (.list [] [.double 1, .enum [] "A".toList 2]) :=
  .list _ _ _ rfl (by
    intro p hp
    simp only [List.zip_cons_cons, List.zip_nil_left, List.mem_cons, List.not_mem_nil, or_false] at hp
    rcases hp with rfl | rfl
    · exact .double _ _ (by decide +kernel)
    · exact .enum _ _ _ _)

#print axioms C84_text_partial
#print axioms C84_inspect_partial
#print axioms C84_exact
#print axioms C84_text_violated

end Corda.Props
