import Verif.Spec.Alike
import Verif.Props.Number
import Verif.Props.Factory

/-
The text of a value, read from the front.
-/

namespace Corda
open Corda.Spec Corda.Props

/-- Nothing follows, or a blank or a comma. -/
def Stop (r : Str) : Prop := r = [] ∨ ∃ x, r = ' ' :: x ∨ r = ',' :: x

theorem Stop.blank (x : Str) : Stop (' ' :: x) := .inr ⟨x, .inl rfl⟩
theorem Stop.comma (x : Str) : Stop (',' :: x) := .inr ⟨x, .inr rfl⟩
theorem Stop.nil : Stop [] := .inl rfl

/-- A text without blanks and commas. -/
def Solid (a : Str) : Prop := ' ' ∉ a ∧ ',' ∉ a

theorem Stop.head {r : Str} (h : Stop r) {x : Char} {l : Str} (he : r = x :: l) : x = ' ' ∨ x = ',' := by
  rcases h with rfl | ⟨y, rfl | rfl⟩
  · cases he
  · cases he; exact .inl rfl
  · cases he; exact .inr rfl

/-- Solid texts end where a blank or a comma comes. -/
theorem solid_apart : ∀ {a b r s : Str}, Solid a → Solid b → Stop r → Stop s → a ++ r = b ++ s → a = b ∧ r = s
  | [], [], _, _, _, _, _, _, h => ⟨rfl, h⟩
  | [], y :: b, r, s, _, hb, hr, _, h => by
    rcases hr.head h with rfl | rfl
    · exact absurd (List.mem_cons_self) hb.1
    · exact absurd (List.mem_cons_self) hb.2
  | x :: a, [], r, s, ha, _, _, hs, h => by
    rcases hs.head h.symm with rfl | rfl
    · exact absurd (List.mem_cons_self) ha.1
    · exact absurd (List.mem_cons_self) ha.2
  | x :: a, y :: b, r, s, ha, hb, hr, hs, h => by
    simp only [List.cons_append, List.cons.injEq] at h
    obtain ⟨h1, h2⟩ := solid_apart (a := a) (b := b) ⟨fun m => ha.1 (.tail _ m), fun m => ha.2 (.tail _ m)⟩
      ⟨fun m => hb.1 (.tail _ m), fun m => hb.2 (.tail _ m)⟩ hr hs h.2
    exact ⟨by rw [h.1, h1], h2⟩

/-- Quoted texts end at the next quotation mark. -/
theorem quote_apart : ∀ {a b r s : Str}, '"' ∉ a → '"' ∉ b → a ++ '"' :: r = b ++ '"' :: s → a = b ∧ r = s
  | [], [], _, _, _, _, h => ⟨rfl, (List.cons.inj h).2⟩
  | [], y :: b, r, s, _, hb, h => by
    rw [List.nil_append, List.cons_append, List.cons.injEq] at h
    exact absurd (h.1 ▸ List.mem_cons_self) hb
  | x :: a, [], r, s, ha, _, h => by
    rw [List.nil_append, List.cons_append, List.cons.injEq] at h
    exact absurd (h.1 ▸ List.mem_cons_self) ha
  | x :: a, y :: b, r, s, ha, hb, h => by
    simp only [List.cons_append, List.cons.injEq] at h
    obtain ⟨h1, h2⟩ := quote_apart (a := a) (b := b) (fun m => ha (.tail _ m)) (fun m => hb (.tail _ m)) h.2
    exact ⟨by rw [h.1, h1], h2⟩

/-! ### Numbers -/

/-- The characters numbers are written with. -/
def numeric : List Char := "0123456789.-infa".toList

theorem solid_of_numeric {a : Str} (h : ∀ c ∈ a, c ∈ numeric) : Solid a :=
  ⟨fun m => absurd (h _ m) (by decide +kernel), fun m => absurd (h _ m) (by decide +kernel)⟩

theorem numeric_digit : ∀ {n : Nat}, n < 10 → digit n ∈ numeric := by
  intro n h
  have : ∀ n : Fin 10, digit n.1 ∈ numeric := by decide +kernel
  exact this ⟨n, h⟩

theorem numeric_nat (n : Nat) : ∀ c ∈ decimalNat n, c ∈ numeric := by
  induction n using Nat.strongRecOn with
  | ind n ih =>
    intro c hc
    rw [decimalNat] at hc
    split at hc
    · rw [List.mem_singleton] at hc
      exact hc ▸ numeric_digit ‹_›
    · rw [List.mem_append, List.mem_singleton] at hc
      rcases hc with h | h
      · exact ih (n / 10) (by omega) c h
      · exact h ▸ numeric_digit (Nat.mod_lt _ (by omega))

theorem numeric_int (n : Int) : ∀ c ∈ decimal n, c ∈ numeric := by
  intro c hc
  rw [decimal] at hc
  split at hc
  · rcases List.mem_cons.mp hc with rfl | h
    · decide +kernel
    · exact numeric_nat _ c h
  · exact numeric_nat _ c hc

theorem numeric_sign (b : Bool) : ∀ c ∈ (if b then ['-'] else []), c ∈ numeric := by
  cases b <;> decide +kernel

theorem numeric_append {a b : Str} (ha : ∀ c ∈ a, c ∈ numeric) (hb : ∀ c ∈ b, c ∈ numeric) : ∀ c ∈ a ++ b, c ∈ numeric := by
  intro c hc
  rcases List.mem_append.mp hc with h | h
  · exact ha c h
  · exact hb c h

theorem numeric_pad6 (n : Nat) : ∀ c ∈ pad6 n, c ∈ numeric := by
  rw [pad6, natStr_eq]
  refine numeric_append ?_ (numeric_nat n)
  intro c hc
  rw [(List.mem_replicate.mp hc).2]
  decide +kernel

theorem numeric_fixed6 (neg : Bool) (m : Nat) (e : Int) : ∀ c ∈ fixed6 neg m e, c ∈ numeric := by
  rw [fixed6]
  refine numeric_append (numeric_append (numeric_append (numeric_sign neg) ?_) (by decide +kernel)) (numeric_pad6 _)
  rw [natStr_eq]
  exact numeric_nat _

theorem numeric_double (b : Nat) : ∀ c ∈ doubleStr b, c ∈ numeric := by
  rw [doubleStr, ieeeStr]
  split
  · refine numeric_append (numeric_sign _) ?_
    split <;> decide +kernel
  · split <;> exact numeric_fixed6 _ _ _

theorem numeric_bool (b : Bool) : ∀ c ∈ boolText b, c ∈ numeric := by
  cases b <;> decide +kernel

theorem append_ne {a b : Str} (h : b ≠ []) : a ++ b ≠ [] := by simp [h]

theorem double_ne (b : Nat) : doubleStr b ≠ [] := by
  rw [doubleStr, ieeeStr]
  split
  · refine append_ne ?_
    split <;> simp
  · split <;> (rw [fixed6]; simp)

theorem decimal_ne (n : Int) : decimal n ≠ [] := by
  rw [decimal]
  split
  · simp
  · exact decimalNat_ne _

theorem decimalNat_inj {n m : Nat} (h : decimalNat n = decimalNat m) : n = m := by
  have := numeralValue_decimalNat n
  rw [h, numeralValue_decimalNat m] at this
  exact (Option.some.inj this).symm

theorem decimal_inj {n m : Int} (h : decimal n = decimal m) : n = m := by
  rw [← intStr_eq, ← intStr_eq] at h
  exact C81_integers_differ n m h

theorem boolText_inj {a b : Bool} (h : boolText a = boolText b) : a = b := by
  revert h
  cases a <;> cases b <;> decide +kernel

/-! ### What belongs to a type -/

/-- A schema whose types have names of their own. -/
structure Distinct (ts : List TypeNotation) : Prop where
  words : ∀ t ∈ ts, t.name ∉ readable
  names : SameNames ts

theorem word_readable (w : Str) (h : w ∈ ["int".toList, "long".toList, "double".toList, "boolean".toList, "string".toList, "binary".toList]) :
    w ∈ readable := by
  revert w
  decide +kernel

variable {ts : List TypeNotation}

theorem Distinct.comp (h : Distinct ts) {c : Composite} (hc : .comp c ∈ ts) : c.name ∉ readable := h.words _ hc
theorem Distinct.restr (h : Distinct ts) {r : Restricted} (hr : .restr r ∈ ts) : r.name ∉ readable := h.words _ hr

/-- The primitive values of a type. -/
def primOf (t : Str) (w : PVal) : Prop :=
  (t = "int".toList ∧ ∃ n, w = .int n) ∨ (t = "long".toList ∧ ∃ n, w = .long n) ∨ (t = "double".toList ∧ ∃ n, w = .double n)
  ∨ (t = "boolean".toList ∧ ∃ n, w = .bool n) ∨ (t = "string".toList ∧ ∃ n, w = .str n) ∨ (t = "binary".toList ∧ ∃ n, w = .bin n)

/-- The values of a composite type. -/
def compOf (ts : List TypeNotation) (c : Composite) (w : PVal) : Prop :=
  w = .null ∨ ∃ vs, w = .obj c.descriptor (c.fields.map Field.name) vs ∧ vs.length = c.fields.length
    ∧ ∀ f v t, (f, v) ∈ c.fields.zip vs → f.resolvedType = .ok t → Typed ts t v

/-- The values of a restricted type. -/
def restrOf (ts : List TypeNotation) (r : Restricted) (w : PVal) : Prop :=
  match r.kind with
  | .enum cs => ∃ k o, k ∈ cs ∧ w = .enum r.descriptor k o
  | .list l | .array l => ∃ es, w = .list r.descriptor es ∧ ∀ e ∈ es, Typed ts l e
  | .map k v => ∃ es, w = .map r.descriptor es ∧ (∀ e ∈ es, Typed ts k e.key) ∧ ∀ e ∈ es, Typed ts v e.value

/-- What belongs to a type, by kinds. -/
theorem typed_kinds {t : Str} {w : PVal} (h : Typed ts t w) :
    primOf t w ∨ (∃ c, .comp c ∈ ts ∧ t = c.name ∧ compOf ts c w) ∨ ∃ r, .restr r ∈ ts ∧ t = r.name ∧ restrOf ts r w := by
  cases h with
  | int n => exact .inl (by simp [primOf])
  | long n => exact .inl (by simp [primOf])
  | double n => exact .inl (by simp [primOf])
  | bool n => exact .inl (by simp [primOf])
  | str n => exact .inl (by simp [primOf])
  | bin n => exact .inl (by simp [primOf])
  | null c hc => exact .inr (.inl ⟨c, hc, rfl, .inl rfl⟩)
  | obj c vs hc hl hv => exact .inr (.inl ⟨c, hc, rfl, .inr ⟨vs, rfl, hl, hv⟩⟩)
  | enum r cs k o hr hk hm => exact .inr (.inr ⟨r, hr, rfl, by rw [restrOf, hk]; exact ⟨k, o, hm, rfl⟩⟩)
  | list r l es hr hk he =>
    refine .inr (.inr ⟨r, hr, rfl, ?_⟩)
    rcases hk with hk | hk <;> (rw [restrOf, hk]; exact ⟨es, rfl, he⟩)
  | map r k v es hr hk he1 he2 => exact .inr (.inr ⟨r, hr, rfl, by rw [restrOf, hk]; exact ⟨es, rfl, he1, he2⟩⟩)

theorem prim_readable {t : Str} {w : PVal} (h : primOf t w) : t ∈ readable := by
  rcases h with ⟨rfl, _⟩ | ⟨rfl, _⟩ | ⟨rfl, _⟩ | ⟨rfl, _⟩ | ⟨rfl, _⟩ | ⟨rfl, _⟩ <;> exact word_readable _ (by simp)

/-- What belongs to a readable word is a primitive. -/
theorem typed_prim (hd : Distinct ts) {t : Str} (ht : t ∈ readable) {w : PVal} (h : Typed ts t w) : primOf t w := by
  rcases typed_kinds h with h | ⟨c, hc, rfl, _⟩ | ⟨r, hr, rfl, _⟩
  · exact h
  · exact absurd ht (hd.comp hc)
  · exact absurd ht (hd.restr hr)

theorem typed_comp (hd : Distinct ts) {c : Composite} (hc : .comp c ∈ ts) {w : PVal} (h : Typed ts c.name w) : compOf ts c w := by
  rcases typed_kinds h with h | ⟨c', hc', hn, h⟩ | ⟨r, hr, hn, _⟩
  · exact absurd (prim_readable h) (hd.comp hc)
  · have := hd.names _ hc _ hc' hn
    cases this
    exact h
  · have := hd.names _ hc _ hr hn
    cases this

theorem typed_restr (hd : Distinct ts) {r : Restricted} (hr : .restr r ∈ ts) {w : PVal} (h : Typed ts r.name w) :
    restrOf ts r w := by
  rcases typed_kinds h with h | ⟨c', hc', hn, h⟩ | ⟨r', hr', hn, h⟩
  · exact absurd (prim_readable h) (hd.restr hr)
  · have := hd.names _ hr _ hc' hn
    cases this
  · have := hd.names _ hr _ hr' hn
    cases this
    exact h

/-! ### Items separated by commas -/

/-- All but the first item. -/
def laters {α : Type} (f : α → Str) : List α → Str
  | [] => []
  | a :: as => ',' :: ' ' :: (f a ++ laters f as)

theorem commas_laters {α : Type} (f : α → Str) (a : α) (as : List α) : commas ((a :: as).map f) = f a ++ laters f as := by
  induction as generalizing a with
  | nil => simp [commas, laters]
  | cons b as ih =>
    have : commas ((a :: b :: as).map f) = f a ++ ", ".toList ++ commas ((b :: as).map f) := by
      simp [commas, List.intercalate]
    rw [this, ih, laters]
    simp

/-- The texts of the items can be told apart. -/
def Apart {α : Type} (f : α → Str) (R : α → α → Prop) (a b : α) : Prop :=
  ∀ r s, Stop r → Stop s → f a ++ r = f b ++ s → R a b ∧ r = s

theorem laters_apart {α : Type} {f : α → Str} {R : α → α → Prop} (x : Char) :
    ∀ {as bs : List α} {r s : Str}, (∀ p ∈ as.zip bs, Apart f R p.1 p.2) →
      laters f as ++ ' ' :: x :: r = laters f bs ++ ' ' :: x :: s →
      (as.length = bs.length ∧ ∀ p ∈ as.zip bs, R p.1 p.2) ∧ r = s
  | [], [], r, s, _, h => by simp [laters] at h ⊢; exact h
  | [], b :: bs, r, s, _, h => by simp [laters] at h
  | a :: as, [], r, s, _, h => by simp [laters] at h
  | a :: as, b :: bs, r, s, hp, h => by
    simp only [laters, List.cons_append, List.append_assoc, List.cons.injEq, true_and] at h
    have stop : ∀ l : List α, ∀ r, Stop (laters f l ++ ' ' :: x :: r) := by
      intro l r
      cases l with
      | nil => exact .blank _
      | cons c l => exact .comma _
    obtain ⟨h1, h2⟩ := hp (a, b) (by simp) _ _ (stop as r) (stop bs s) h
    obtain ⟨⟨h3, h4⟩, h5⟩ := laters_apart x (fun p hm => hp p (by simp [hm])) h2
    refine ⟨⟨by simp [h3], ?_⟩, h5⟩
    intro p hm
    rw [List.zip_cons_cons, List.mem_cons] at hm
    rcases hm with rfl | hm
    · exact h1
    · exact h4 p hm

theorem items_apart {α : Type} {f : α → Str} {R : α → α → Prop} (x : Char) {as bs : List α} {r s : Str}
    (hp : ∀ p ∈ as.zip bs, Apart f R p.1 p.2)
    (hn : as.length = bs.length ∨ ∀ a, a ∈ as ∨ a ∈ bs → ∃ y l, f a = y :: l ∧ y ≠ ' ')
    (h : commas (as.map f) ++ ' ' :: x :: r = commas (bs.map f) ++ ' ' :: x :: s) :
    (as.length = bs.length ∧ ∀ p ∈ as.zip bs, R p.1 p.2) ∧ r = s := by
  cases as with
  | nil =>
    cases bs with
    | nil => simp [commas] at h ⊢; exact h
    | cons b bs =>
      rcases hn with hn | hn
      · simp at hn
      · obtain ⟨y, l, h1, h2⟩ := hn b (by simp)
        rw [commas_laters, h1] at h
        simp [commas] at h
        exact absurd h.1.symm h2
  | cons a as =>
    cases bs with
    | nil =>
      rcases hn with hn | hn
      · simp at hn
      · obtain ⟨y, l, h1, h2⟩ := hn a (by simp)
        rw [commas_laters, h1] at h
        simp [commas] at h
        exact absurd h.1 h2
    | cons b bs =>
      refine laters_apart x (as := a :: as) (bs := b :: bs) hp ?_
      rw [commas_laters, commas_laters] at h
      simp only [laters, List.cons_append, h]

/-! ### Values -/

theorem allOf (es : List PVal) : shownAll es = es.map shown := by
  induction es with
  | nil => rfl
  | cons e es ih => rw [shownAll, ih]; rfl

theorem namedOf (ns : List Str) (vs : List PVal) : shownNamed ns vs = (ns.zip vs).map fun p => colon p.1 (shown p.2) := by
  induction ns generalizing vs with
  | nil => cases vs <;> rfl
  | cons n ns ih =>
    cases vs with
    | nil => rfl
    | cons v vs => rw [shownNamed, ih]; rfl

theorem entriesOf (es : List PEntry) : shownEntries es = es.map fun e => colon (shown e.key) (shown e.value) := by
  induction es with
  | nil => rfl
  | cons e es ih => obtain ⟨k, v⟩ := e; rw [shownEntries, ih]; rfl

theorem head_of_numeric {a : Str} (hne : a ≠ []) (h : ∀ c ∈ a, c ∈ numeric) : ∃ y l, a = y :: l ∧ y ≠ ' ' := by
  cases a with
  | nil => exact absurd rfl hne
  | cons y l => exact ⟨y, l, rfl, fun e => absurd (e ▸ h y (by simp)) (by decide +kernel)⟩

/-- No text of a legible value starts with a blank. -/
theorem shown_head {v : PVal} (h : Legible v) : ∃ y l, shown v = y :: l ∧ y ≠ ' ' := by
  cases h with
  | int n => rw [shown]; exact head_of_numeric (decimal_ne n) (numeric_int n)
  | long n => rw [shown]; exact head_of_numeric (decimal_ne n) (numeric_int n)
  | double n => rw [shown]; exact head_of_numeric (double_ne n) (numeric_double n)
  | bool b => rw [shown]; exact head_of_numeric (by cases b <;> decide +kernel) (numeric_bool b)
  | str s _ => rw [shown]; exact ⟨'"', s ++ ['"'], rfl, by decide⟩
  | bin s => rw [shown]; exact ⟨'<', _, rfl, by decide⟩
  | null => rw [shown]; exact ⟨'<', _, rfl, by decide⟩
  | enum d c o hne hb hc =>
    rw [shown]
    cases c with
    | nil => exact absurd rfl hne
    | cons y l => exact ⟨y, l, rfl, fun e => hb (e ▸ List.mem_cons_self)⟩
  | obj d ns vs _ => rw [shown]; exact ⟨'{', _, rfl, by decide⟩
  | list d es _ => rw [shown]; exact ⟨'[', _, rfl, by decide⟩
  | map d es _ _ => rw [shown]; exact ⟨'{', _, rfl, by decide⟩

theorem number_apart {a b r s : Str} (ha : ∀ c ∈ a, c ∈ numeric) (hb : ∀ c ∈ b, c ∈ numeric) (hr : Stop r) (hs : Stop s)
    (h : a ++ r = b ++ s) : a = b ∧ r = s := solid_apart (solid_of_numeric ha) (solid_of_numeric hb) hr hs h

theorem legible_enum {d c : Str} {o : Int} (h : Legible (.enum d c o)) : Solid c := by
  cases h with
  | enum _ _ _ _ h1 h2 => exact ⟨h1, h2⟩

theorem legible_list {d : Str} {es : List PVal} (h : Legible (.list d es)) : ∀ v ∈ es, Legible v := by
  cases h with
  | list _ _ h => exact h

theorem legible_obj {d : Str} {ns : List Str} {es : List PVal} (h : Legible (.obj d ns es)) : ∀ v ∈ es, Legible v := by
  cases h with
  | obj _ _ _ h => exact h

theorem legible_map {d : Str} {es : List PEntry} (h : Legible (.map d es)) : ∀ e ∈ es, Legible e.key ∧ Legible e.value := by
  cases h with
  | map _ _ h1 h2 => exact fun e he => ⟨h1 e he, h2 e he⟩

theorem legible_str {s : Str} (h : Legible (.str s)) : '"' ∉ s := by
  cases h with
  | str _ h => exact h

theorem braces_eq (l : List Str) (r : Str) : braces l ++ r = '{' :: ' ' :: (commas l ++ ' ' :: '}' :: r) := by
  simp [braces]

theorem brackets_eq (l : List Str) (r : Str) : brackets l ++ r = '[' :: ' ' :: (commas l ++ ' ' :: ']' :: r) := by
  simp [brackets]

theorem colon_eq (a b r : Str) : colon a b ++ r = a ++ ' ' :: ':' :: ' ' :: (b ++ r) := by
  simp [colon]

/-- The words of the primitive types are different. -/
theorem prim_words {t : Str} {w : PVal} (h : primOf t w) :
    (t = "int".toList → ∃ n, w = .int n) ∧ (t = "long".toList → ∃ n, w = .long n)
    ∧ (t = "double".toList → ∃ n, w = .double n) ∧ (t = "boolean".toList → ∃ n, w = .bool n)
    ∧ (t = "string".toList → ∃ n, w = .str n) ∧ (t = "binary".toList → ∃ n, w = .bin n) := by
  rcases h with ⟨rfl, h⟩ | ⟨rfl, h⟩ | ⟨rfl, h⟩ | ⟨rfl, h⟩ | ⟨rfl, h⟩ | ⟨rfl, h⟩ <;>
    refine ⟨?_, ?_, ?_, ?_, ?_, ?_⟩ <;> intro e <;> first
      | exact h
      | exact absurd e (by decide +kernel)

def absentRest : Str := "<NULL>>".toList
def bytesOpen : Str := "<<<binary: ".toList
def bytesClose : Str := "bytes>>>".toList

theorem absent_eq : absent = '<' :: absentRest := by decide +kernel

theorem bytesClose_eq : " bytes>>>".toList = ' ' :: bytesClose := by decide +kernel

theorem around (a d b r : Str) : a ++ d ++ (' ' :: b) ++ r = a ++ (d ++ ' ' :: (b ++ r)) := by simp

theorem binary_eq (n : Nat) (r : Str) : binaryText n ++ r = bytesOpen ++ (decimalNat n ++ ' ' :: (bytesClose ++ r)) := by
  have h : binaryText n = bytesOpen ++ decimalNat n ++ (' ' :: bytesClose) :=
    congrArg (fun b => bytesOpen ++ decimalNat n ++ b) bytesClose_eq
  rw [h]
  exact around bytesOpen _ _ _

theorem quoted_eq (s r : Str) : quoted s ++ r = '"' :: (s ++ '"' :: r) := by simp [quoted]

theorem null_or_object (l : List Str) (r s : Str) : absent ++ r ≠ braces l ++ s := by
  rw [absent_eq, braces_eq, List.cons_append]
  intro h
  exact absurd (List.cons.inj h).1 (by decide)

/-- **The text of a value tells what the value is**, whatever follows it. -/
theorem shown_apart (hd : Distinct ts) {t : Str} {v : PVal} (hv : Typed ts t v) :
    ∀ {w : PVal} {r s : Str}, Typed ts t w → Legible v → Legible w → Stop r → Stop s → shown v ++ r = shown w ++ s →
      Alike v w ∧ r = s := by
  induction hv with
  | int n =>
    intro w r s hw lv lw hr hs h
    obtain ⟨m, rfl⟩ := (prim_words (typed_prim hd (word_readable _ (by simp)) hw)).1 rfl
    rw [shown, shown] at h
    obtain ⟨h1, h2⟩ := number_apart (numeric_int n) (numeric_int m) hr hs h
    obtain rfl := decimal_inj h1
    exact ⟨.int n, h2⟩
  | long n =>
    intro w r s hw lv lw hr hs h
    obtain ⟨m, rfl⟩ := (prim_words (typed_prim hd (word_readable _ (by simp)) hw)).2.1 rfl
    rw [shown, shown] at h
    obtain ⟨h1, h2⟩ := number_apart (numeric_int n) (numeric_int m) hr hs h
    obtain rfl := decimal_inj h1
    exact ⟨.long n, h2⟩
  | double n =>
    intro w r s hw lv lw hr hs h
    obtain ⟨m, rfl⟩ := (prim_words (typed_prim hd (word_readable _ (by simp)) hw)).2.2.1 rfl
    rw [shown, shown] at h
    obtain ⟨h1, h2⟩ := number_apart (numeric_double n) (numeric_double m) hr hs h
    have h3 := h1
    exact ⟨.double n m h3, h2⟩
  | bool n =>
    intro w r s hw lv lw hr hs h
    obtain ⟨m, rfl⟩ := (prim_words (typed_prim hd (word_readable _ (by simp)) hw)).2.2.2.1 rfl
    rw [shown, shown] at h
    obtain ⟨h1, h2⟩ := number_apart (numeric_bool n) (numeric_bool m) hr hs h
    obtain rfl := boolText_inj h1
    exact ⟨.bool n, h2⟩
  | str n =>
    intro w r s hw lv lw hr hs h
    obtain ⟨m, rfl⟩ := (prim_words (typed_prim hd (word_readable _ (by simp)) hw)).2.2.2.2.1 rfl
    rw [shown, shown] at h
    rw [quoted_eq, quoted_eq] at h
    obtain ⟨rfl, h2⟩ := quote_apart (legible_str lv) (legible_str lw) (List.cons.inj h).2
    exact ⟨.str n, h2⟩
  | bin n =>
    intro w r s hw lv lw hr hs h
    obtain ⟨m, rfl⟩ := (prim_words (typed_prim hd (word_readable _ (by simp)) hw)).2.2.2.2.2 rfl
    rw [shown, shown] at h
    rw [binary_eq, binary_eq] at h
    obtain ⟨h1, h2⟩ := number_apart (numeric_nat _) (numeric_nat _) (.blank _) (.blank _) (List.append_cancel_left h)
    exact ⟨.bin n m (decimalNat_inj h1), List.append_cancel_left (List.cons.inj h2).2⟩
  | null c hc =>
    intro w r s hw _ lw hr hs h
    rcases typed_comp hd hc hw with rfl | ⟨vs, rfl, _⟩
    · rw [shown] at h
      exact ⟨.null, List.append_cancel_left h⟩
    · rw [shown, shown] at h
      exact absurd h (null_or_object _ _ _)
  | enum r cs k o hr hk hm =>
    intro w r' s hw lv lw hr' hs h
    have := typed_restr hd hr hw
    rw [restrOf, hk] at this
    obtain ⟨k', o', _, rfl⟩ := this
    rw [shown, shown] at h
    obtain ⟨rfl, h2⟩ := solid_apart (legible_enum lv) (legible_enum lw) hr' hs h
    exact ⟨.enum _ _ _ _, h2⟩
  | list r l es hr hk he ih =>
    intro w r' s hw lv lw hr' hs h
    have := typed_restr hd hr hw
    obtain ⟨fs, rfl, hf⟩ : ∃ fs, w = .list r.descriptor fs ∧ ∀ e ∈ fs, Typed ts l e := by
      rw [restrOf] at this
      rcases hk with hk | hk <;> (rw [hk] at this; exact this)
    rw [shown, shown, allOf, allOf, brackets_eq, brackets_eq] at h
    simp only [List.cons.injEq, true_and] at h
    have l1 := legible_list lv
    have l2 := legible_list lw
    obtain ⟨⟨h1, h2⟩, h3⟩ := items_apart (f := shown) (R := Alike) ']' (fun p hp r s hr hs h =>
      have m := List.of_mem_zip hp
      ih p.1 m.1 (hf p.2 m.2) (l1 _ m.1) (l2 _ m.2) hr hs h)
      (.inr fun a ha => shown_head (ha.elim (l1 a) (l2 a))) h
    exact ⟨.list _ _ _ h1 h2, h3⟩
  | map r k v es hr hk he1 he2 ih1 ih2 =>
    intro w r' s hw lv lw hr' hs h
    have := typed_restr hd hr hw
    rw [restrOf, hk] at this
    obtain ⟨fs, rfl, hf1, hf2⟩ := this
    rw [shown, shown, entriesOf, entriesOf, braces_eq, braces_eq] at h
    simp only [List.cons.injEq, true_and] at h
    have l1 := legible_map lv
    have l2 := legible_map lw
    obtain ⟨⟨h1, h2⟩, h3⟩ := items_apart (f := fun e : PEntry => colon (shown e.key) (shown e.value))
      (R := fun a b => Alike a.key b.key ∧ Alike a.value b.value) '}' (fun p hp r s hr hs h => by
        have m := List.of_mem_zip hp
        simp only [colon_eq] at h
        obtain ⟨a1, a2⟩ := ih1 p.1 m.1 (hf1 p.2 m.2) (l1 _ m.1).1 (l2 _ m.2).1 (.blank _) (.blank _) h
        simp only [List.cons.injEq, true_and] at a2
        obtain ⟨b1, b2⟩ := ih2 p.1 m.1 (hf2 p.2 m.2) (l1 _ m.1).2 (l2 _ m.2).2 hr hs a2
        exact ⟨⟨a1, b1⟩, b2⟩)
      (.inr fun a ha => by
        obtain ⟨y, l, e, hy⟩ := shown_head (ha.elim (l1 a) (l2 a)).1
        exact ⟨y, _, by rw [colon, e]; rfl, hy⟩) h
    exact ⟨.map _ _ _ h1 (fun p hp => (h2 p hp).1) (fun p hp => (h2 p hp).2), h3⟩
  | obj c vs hc hl hv hres ih =>
    intro w r s hw lv lw hr hs h
    rcases typed_comp hd hc hw with rfl | ⟨ws, rfl, hl', hw'⟩
    · rw [shown, shown] at h
      exact absurd h.symm (null_or_object _ _ _)
    · rw [shown, shown, namedOf, namedOf, braces_eq, braces_eq] at h
      simp only [List.cons.injEq, true_and] at h
      have l1 := legible_obj lv
      have l2 := legible_obj lw
      have hzip : ∀ (fs : List Field) (vs ws : List PVal) (p : (Str × PVal) × (Str × PVal)),
          p ∈ ((fs.map Field.name).zip vs).zip ((fs.map Field.name).zip ws) →
          ∃ f, p.1.1 = f.name ∧ p.2.1 = f.name ∧ (f, p.1.2) ∈ fs.zip vs ∧ (f, p.2.2) ∈ fs.zip ws := by
        intro fs
        induction fs with
        | nil => intro vs ws p hp; simp at hp
        | cons f fs ihf =>
          intro vs ws p hp
          cases vs with
          | nil => simp at hp
          | cons v vs =>
            cases ws with
            | nil => simp at hp
            | cons w ws =>
              simp only [List.map_cons, List.zip_cons_cons, List.mem_cons] at hp
              rcases hp with rfl | hp
              · exact ⟨f, rfl, rfl, by simp, by simp⟩
              · obtain ⟨g, a, b, c, d⟩ := ihf vs ws p hp
                exact ⟨g, a, b, by simp [c], by simp [d]⟩
      obtain ⟨⟨h1, h2⟩, h3⟩ := items_apart (f := fun p : Str × PVal => colon p.1 (shown p.2))
        (R := fun a b => Alike a.2 b.2) '}' (fun p hp r s hr hs h => by
          obtain ⟨f, n1, n2, m1, m2⟩ := hzip _ _ _ p hp
          simp only [colon_eq, n1, n2] at h
          have h := List.append_cancel_left h
          simp only [List.cons.injEq, true_and] at h
          obtain ⟨t, ht⟩ := hres f (List.of_mem_zip m1).1
          exact ih f p.1.2 t m1 ht (hw' f p.2.2 t m2 ht) (l1 _ (List.of_mem_zip m1).2) (l2 _ (List.of_mem_zip m2).2) hr hs h)
        (.inl (by simp [hl, hl'])) h
      have hback : ∀ (ns : List Str) (vs ws : List PVal), vs.length = ns.length → ∀ p ∈ vs.zip ws,
          ∃ n, ((n, p.1), (n, p.2)) ∈ (ns.zip vs).zip (ns.zip ws) := by
        intro ns
        induction ns with
        | nil => intro vs ws hv p hp; cases vs <;> simp at hp hv
        | cons n ns ihn =>
          intro vs ws hv p hp
          cases vs with
          | nil => simp at hp
          | cons v vs =>
            cases ws with
            | nil => simp at hp
            | cons w ws =>
              rw [List.zip_cons_cons, List.mem_cons] at hp
              rcases hp with rfl | hp
              · exact ⟨n, by simp⟩
              · obtain ⟨m, hm⟩ := ihn vs ws (by simpa using hv) p hp
                exact ⟨m, by simp [hm]⟩
      refine ⟨.obj _ _ _ _ (by rw [hl, hl']) ?_, h3⟩
      intro p hp
      obtain ⟨n, hm⟩ := hback (c.fields.map Field.name) vs ws (by simp [hl]) p hp
      exact h2 _ hm

end Corda
