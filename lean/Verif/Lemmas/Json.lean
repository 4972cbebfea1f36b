import Verif.Spec.Avro
import Verif.Lemmas.Avro

/-
JSON texts: building them, and a small automaton that accepts all of them.
-/

namespace Corda
open Spec

/-! ### An automaton -/

/-- Outside quotes (with the last character that is not white space), inside quotes, behind a backslash, or hopeless. -/
inductive Scan where
  | out (last : Char)
  | str
  | esc
  | bad
  deriving DecidableEq

def Scan.step : Scan → Char → Scan
  | .out l, c =>
    if Blank c then .out l
    else if c = '"' then .str
    else if c ∈ bareChars then (if l = ',' ∧ (c = ']' ∨ c = '}') then .bad else .out c)
    else .bad
  | .str, c => if c = '"' then .out '"' else if c = '\\' then .esc else if PlainChar c then .str else .bad
  | .esc, c => if c ∈ "\"\\/bfnrtu".toList then .str else .bad
  | .bad, _ => .bad

def Scan.run (s : Scan) (t : Str) : Scan := t.foldl Scan.step s

theorem run_nil (s : Scan) : s.run [] = s := rfl
theorem run_cons (s : Scan) (c : Char) (t : Str) : s.run (c :: t) = (s.step c).run t := rfl
theorem run_append (s : Scan) (t u : Str) : s.run (t ++ u) = (s.run t).run u := by
  unfold Scan.run; rw [List.foldl_append]
theorem run_bad (t : Str) : Scan.bad.run t = .bad := by
  induction t with
  | nil => rfl
  | cons c t ih => rw [run_cons]; exact ih

theorem run_blanks {t : Str} (h : ∀ c ∈ t, Blank c) (l : Char) : (Scan.out l).run t = .out l := by
  induction t with
  | nil => rfl
  | cons c t ih =>
    rw [run_cons, show (Scan.out l).step c = .out l by simp only [Scan.step, h c (by simp), if_true]]
    exact ih fun x hx => h x (by simp [hx])

theorem run_raw {t : Str} (h : Quotable t) : Scan.str.run t = .str := by
  induction t with
  | nil => rfl
  | cons c t ih =>
    have hc : PlainChar c := h c (by simp)
    rw [run_cons, show Scan.str.step c = .str by simp only [Scan.step, hc.1, hc.2.1, hc, if_true, if_false]]
    exact ih fun x hx => h x (by simp [hx])

theorem escapes_letters : ∀ p ∈ escapes, p.1 ∈ "\"\\/bfnrtu".toList := by decide

theorem digit_cases {c : Char} (h : c.isDigit = true) : c ∈ "0123456789".toList := by
  have h' : 48 ≤ c.toNat ∧ c.toNat ≤ 57 := by
    simp only [Char.isDigit, Bool.and_eq_true, decide_eq_true_eq, UInt32.le_iff_toNat_le] at h
    exact h
  have e : c = Char.ofNat c.toNat := (Char.ofNat_toNat c).symm
  obtain ⟨h1, h2⟩ := h'
  generalize c.toNat = n at e h1 h2
  have : n = 48 ∨ n = 49 ∨ n = 50 ∨ n = 51 ∨ n = 52 ∨ n = 53 ∨ n = 54 ∨ n = 55 ∨ n = 56 ∨ n = 57 := by omega
  rcases this with rfl | rfl | rfl | rfl | rfl | rfl | rfl | rfl | rfl | rfl <;> rw [e] <;> decide

theorem hexDigit_raw {c : Char} (h : HexDigit c) : PlainChar c := by
  rcases h with h | h
  · have : ∀ c ∈ "0123456789".toList, PlainChar c := by decide
    exact this c (digit_cases h)
  · have : ∀ c ∈ "abcdefABCDEF".toList, PlainChar c := by decide
    exact this c h

theorem run_quotes {s t : Str} (h : Quotes s t) : Scan.str.run t = .str := by
  have raw : ∀ c, PlainChar c → Scan.str.step c = .str := fun c hc => by
    simp only [Scan.step, hc.1, hc.2.1, hc, if_true, if_false]
  induction h with
  | nil => rfl
  | raw c hc _ ih => rw [run_cons, raw c hc]; exact ih
  | escape e c he _ ih =>
    rw [run_cons, run_cons, show Scan.str.step '\\' = .esc by decide,
      show Scan.esc.step e = .str by simp only [Scan.step, escapes_letters _ he, if_true]]
    exact ih
  | code a b c d x ha hb hc hd _ ih =>
    simp only [run_cons]
    rw [show Scan.str.step '\\' = .esc by decide, show Scan.esc.step 'u' = .str by decide, raw a (hexDigit_raw ha),
      raw b (hexDigit_raw hb), raw c (hexDigit_raw hc), raw d (hexDigit_raw hd)]
    exact ih

/-- The characters of numbers and literals. -/
def wordChars : List Char := "truefalsnE0123456789+-.".toList

theorem step_word {c : Char} (h : c ∈ wordChars) (l : Char) : (Scan.out l).step c = .out c ∧ c ≠ ',' := by
  have : ∀ c ∈ wordChars, ¬ Blank c ∧ c ≠ '"' ∧ c ∈ bareChars ∧ c ≠ ']' ∧ c ≠ '}' ∧ c ≠ ',' := by decide
  obtain ⟨h1, h2, h3, h4, h5, h6⟩ := this c h
  refine ⟨?_, h6⟩
  simp only [Scan.step, h1, h2, h3, h4, h5, if_true, if_false, or_self, and_false]

theorem run_word {s : Str} (h : ∀ c ∈ s, c ∈ wordChars) (hne : s ≠ []) (l : Char) :
    ∃ l', l' ≠ ',' ∧ (Scan.out l).run s = .out l' := by
  induction s generalizing l with
  | nil => exact absurd rfl hne
  | cons c s ih =>
    obtain ⟨h1, h2⟩ := step_word (h c (by simp)) l
    rw [run_cons, h1]
    cases s with
    | nil => exact ⟨c, h2, rfl⟩
    | cons d s => exact ih (fun x hx => h x (by simp [hx])) (by simp) c

theorem number_word {s : Str} (h : Number s) : (∀ c ∈ s, c ∈ wordChars) ∧ s ≠ [] := by
  have dg : ∀ {t : Str}, Digits t → ∀ c ∈ t, c ∈ wordChars := by
    intro t ht c hc
    have : ∀ c ∈ "0123456789".toList, c ∈ wordChars := by decide
    exact this c (digit_cases (ht.2 c hc))
  have he : ∀ c ∈ "eE".toList, c ∈ wordChars := by decide
  have hf : ∀ c ∈ "+-".toList, c ∈ wordChars := by decide
  have hm : '-' ∈ wordChars := by decide
  have hd : '.' ∈ wordChars := by decide
  induction h with
  | int h => exact ⟨dg h, h.1⟩
  | neg h =>
    refine ⟨fun c hc => ?_, by simp⟩
    rcases List.mem_cons.mp hc with rfl | hc
    · exact hm
    · exact dg h c hc
  | frac _ h ih =>
    refine ⟨fun c hc => ?_, by simp⟩
    rcases List.mem_append.mp hc with hc | hc
    · exact ih.1 c hc
    · rcases List.mem_cons.mp hc with rfl | hc
      · exact hd
      · exact dg h c hc
  | exp e h1 _ h ih =>
    refine ⟨fun c hc => ?_, by simp⟩
    rcases List.mem_append.mp hc with hc | hc
    · exact ih.1 c hc
    · rcases List.mem_cons.mp hc with rfl | hc
      · exact he _ h1
      · exact dg h c hc
  | signedExp e f h1 h2 _ h ih =>
    refine ⟨fun c hc => ?_, by simp⟩
    rcases List.mem_append.mp hc with hc | hc
    · exact ih.1 c hc
    · rcases List.mem_cons.mp hc with rfl | hc
      · exact he _ h1
      · rcases List.mem_cons.mp hc with rfl | hc
        · exact hf _ h2
        · exact dg h c hc

theorem step_open (l : Char) : ∀ c ∈ ['[', '{', ',', ':'], (Scan.out l).step c = .out c := by
  have : ∀ c ∈ ['[', '{', ',', ':'], ¬ Blank c ∧ c ≠ '"' ∧ c ∈ bareChars ∧ c ≠ ']' ∧ c ≠ '}' := by decide
  intro c hc
  obtain ⟨h1, h2, h3, h4, h5⟩ := this c hc
  simp only [Scan.step, h1, h2, h3, h4, h5, if_true, if_false, or_self, and_false]

theorem step_close {l : Char} (hl : l ≠ ',') : ∀ c ∈ [']', '}'], (Scan.out l).step c = .out c := by
  have : ∀ c ∈ [']', '}'], ¬ Blank c ∧ c ≠ '"' ∧ c ∈ bareChars := by decide
  intro c hc
  obtain ⟨h1, h2, h3⟩ := this c hc
  simp only [Scan.step, h1, h2, h3, hl, if_true, if_false, false_and]

theorem step_quote (l : Char) : (Scan.out l).step '"' = .str := by
  have h1 : ¬ Blank '"' := by decide
  simp only [Scan.step, h1, if_false, if_true]

/-- What the automaton does on a text that stands for something. -/
def Accepts : What → Str → Prop
  | .value _, t => ∀ l, ∃ l', l' ≠ ',' ∧ (Scan.out l).run t = .out l'
  | .items _, t => ∀ l, l ≠ ',' → ∃ l', l' ≠ ',' ∧ (Scan.out l).run t = .out l'
  | .members _, t => ∀ l, l ≠ ',' → ∃ l', l' ≠ ',' ∧ (Scan.out l).run t = .out l'

/-- The same, when there is something in it. -/
def AcceptsMore : What → Str → Prop
  | .value _, _ => True
  | .items js, t => js ≠ [] → ∀ l, ∃ l', l' ≠ ',' ∧ (Scan.out l).run t = .out l'
  | .members ms, t => ms ≠ [] → ∀ l, ∃ l', l' ≠ ',' ∧ (Scan.out l).run t = .out l'

theorem writes_accepts {w : What} {t : Str} (h : JsonText w t) : Accepts w t ∧ AcceptsMore w t := by
  induction h with
  | str h =>
    refine ⟨fun l => ⟨'"', by decide, ?_⟩, trivial⟩
    rw [run_cons, step_quote l, run_append, run_quotes h]
    rfl
  | lit h =>
    refine ⟨fun l => ?_, trivial⟩
    have : ∀ s ∈ ["true".toList, "false".toList, "null".toList], (∀ c ∈ s, c ∈ wordChars) ∧ s ≠ [] := by decide
    exact run_word (this _ h).1 (this _ h).2 l
  | num h => exact ⟨fun l => run_word (number_word h).1 (number_word h).2 l, trivial⟩
  | arr _ ih =>
    refine ⟨fun l => ?_, trivial⟩
    obtain ⟨l', hl, e⟩ := ih.1 '[' (by decide)
    refine ⟨']', by decide, ?_⟩
    rw [run_cons, step_open l '[' (by decide), run_append, e, run_cons,
      step_close hl ']' (by decide), run_nil]
  | obj _ ih =>
    refine ⟨fun l => ?_, trivial⟩
    obtain ⟨l', hl, e⟩ := ih.1 '{' (by decide)
    refine ⟨'}', by decide, ?_⟩
    rw [run_cons, step_open l '{' (by decide), run_append, e, run_cons,
      step_close hl '}' (by decide), run_nil]
  | before c hc _ ih =>
    refine ⟨fun l => ?_, trivial⟩
    rw [run_cons, show (Scan.out l).step c = .out l by simp only [Scan.step, hc, if_true]]
    exact ih.1 l
  | after c hc _ ih =>
    refine ⟨fun l => ?_, trivial⟩
    obtain ⟨l', hl, e⟩ := ih.1 l
    refine ⟨l', hl, ?_⟩
    rw [run_append, e, run_cons, show (Scan.out l').step c = .out l' by simp only [Scan.step, hc, if_true]]
    rfl
  | noItems h => exact ⟨fun l hl => ⟨l, hl, run_blanks h l⟩, fun h => absurd rfl h⟩
  | item _ ih => exact ⟨fun l _ => ih.1 l, fun _ l => ih.1 l⟩
  | items _ _ ih1 ih2 =>
    have : ∀ l, ∃ l', l' ≠ ',' ∧ (Scan.out l).run (_ ++ ',' :: _) = .out l' := fun l => by
      obtain ⟨l1, _, e1⟩ := ih1.1 l
      obtain ⟨l2, h2, e2⟩ := ih2.2 (by simp) ','
      refine ⟨l2, h2, ?_⟩
      rw [run_append, e1, run_cons, step_open l1 ',' (by decide), e2]
    exact ⟨fun l _ => this l, fun _ => this⟩
  | noMembers h => exact ⟨fun l hl => ⟨l, hl, run_blanks h l⟩, fun h => absurd rfl h⟩
  | member _ _ ih1 ih2 =>
    have : ∀ l, ∃ l', l' ≠ ',' ∧ (Scan.out l).run (_ ++ ':' :: _) = .out l' := fun l => by
      obtain ⟨l1, _, e1⟩ := ih1.1 l
      obtain ⟨l2, h2, e2⟩ := ih2.1 ':'
      refine ⟨l2, h2, ?_⟩
      rw [run_append, e1, run_cons, step_open l1 ':' (by decide), e2]
    exact ⟨fun l _ => this l, fun _ => this⟩
  | members _ _ _ ih1 ih2 ih3 =>
    have : ∀ l, ∃ l', l' ≠ ',' ∧ (Scan.out l).run (_ ++ ':' :: (_ ++ ',' :: _)) = .out l' := fun l => by
      obtain ⟨l1, _, e1⟩ := ih1.1 l
      obtain ⟨l2, _, e2⟩ := ih2.1 ':'
      obtain ⟨l3, h3, e3⟩ := ih3.2 (by simp) ','
      refine ⟨l3, h3, ?_⟩
      rw [run_append, e1, run_cons, step_open l1 ':' (by decide), run_append, e2,
        run_cons, step_open l2 ',' (by decide), e3]
    exact ⟨fun l _ => this l, fun _ => this⟩

/-- The automaton never gives up on a JSON text. -/
theorem isJson_run {t : Str} (h : IsJson t) (l : Char) : (Scan.out l).run t ≠ .bad := by
  obtain ⟨j, hj⟩ := h
  obtain ⟨l', -, e⟩ := (writes_accepts hj).1 l
  rw [e]; simp

/-! ### Building JSON texts -/

/-- A quoted text. -/
def quoted (s : Str) : Str := '"' :: (s ++ ['"'])

theorem quotes_self {s : Str} (h : Quotable s) : Quotes s s := by
  induction s with
  | nil => exact .nil
  | cons c s ih => exact .raw c (h c (by simp)) (ih fun x hx => h x (by simp [hx]))

theorem writes_quoted {s : Str} (h : Quotable s) : JsonText (.value (.str s)) (quoted s) := .str (quotes_self h)

theorem writes_before {j : Json} {t b : Str} (hb : ∀ c ∈ b, Blank c) (h : JsonText (.value j) t) :
    JsonText (.value j) (b ++ t) := by
  induction b with
  | nil => exact h
  | cons c b ih => exact .before c (hb c (by simp)) (ih fun x hx => hb x (by simp [hx]))

theorem writes_after {j : Json} {t b : Str} (hb : ∀ c ∈ b, Blank c) (h : JsonText (.value j) t) :
    JsonText (.value j) (t ++ b) := by
  induction b generalizing t with
  | nil => simpa using h
  | cons c b ih =>
    have := ih (t := t ++ [c]) (fun x hx => hb x (by simp [hx])) (.after c (hb c (by simp)) h)
    simpa using this

theorem items_before {js : List Json} {t : Str} (c : Char) (hc : Blank c) (h : JsonText (.items js) t) :
    JsonText (.items js) (c :: t) := by
  cases h with
  | noItems h =>
    refine .noItems fun x hx => ?_
    rcases List.mem_cons.mp hx with rfl | hx
    · exact hc
    · exact h x hx
  | item h => exact .item (.before c hc h)
  | items h1 h2 => exact .items (.before c hc h1) h2

theorem items_after {w : What} {t : Str} (h : JsonText w t) (js : List Json) (hw : w = .items js) (c : Char) (hc : Blank c) :
    JsonText (.items js) (t ++ [c]) := by
  induction h generalizing js with
  | noItems h =>
    cases hw
    refine .noItems fun x hx => ?_
    rcases List.mem_append.mp hx with hx | hx
    · exact h x hx
    · rcases List.mem_singleton.mp hx with rfl; exact hc
  | item h => cases hw; exact .item (.after c hc h)
  | items h1 h2 _ ih =>
    cases hw
    have := JsonText.items h1 (ih _ rfl)
    simpa using this
  | _ => cases hw

theorem items_afters {js : List Json} {t b : Str} (hb : ∀ c ∈ b, Blank c) (h : JsonText (.items js) t) :
    JsonText (.items js) (t ++ b) := by
  induction b generalizing t with
  | nil => simpa using h
  | cons c b ih =>
    have := ih (t := t ++ [c]) (fun x hx => hb x (by simp [hx])) (items_after h _ rfl c (hb c (by simp)))
    simpa using this

theorem indent_blank (k : Nat) : ∀ c ∈ indent k, Blank c := by
  intro c hc
  rw [List.eq_of_mem_replicate hc]
  exact .inl rfl

theorem nl_blank : ∀ c ∈ ['\n'], Blank c := by decide
theorem blank_blank : ∀ c ∈ [' '], Blank c := by decide

/-- A member on a line of its own: blanks, quoted key, ` : `, value. -/
theorem key_text {k : Str} (hk : Quotable k) {b : Str} (hb : ∀ c ∈ b, Blank c) :
    JsonText (.value (.str k)) (b ++ (quoted k ++ [' '])) :=
  writes_before hb (writes_after blank_blank (writes_quoted hk))

end Corda
