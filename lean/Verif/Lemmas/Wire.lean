import Verif.Model.Wire
import Verif.Spec.Wire

/-
Decoding inverts every encoding.
-/

namespace Corda.Wire
open Corda Corda.Spec

theorem length_bytesBE (w n : Nat) : (bytesBE w n).length = w := by
  induction w with
  | zero => rfl
  | succ w ih => simp [bytesBE, ih]

theorem length_bytesSigned (w : Nat) (i : Int) : (bytesSigned w i).length = w := length_bytesBE _ _

private theorem foldl_be (bs : List Byte) (a : Nat) :
    bs.foldl (fun n b => n * 256 + b.toNat) a = a * 256 ^ bs.length + be bs := by
  induction bs generalizing a with
  | nil => simp [be]
  | cons b bs ih =>
    simp only [List.foldl_cons, be, List.length_cons]
    rw [ih, ih (0 * 256 + b.toNat)]
    rw [Nat.pow_succ, Nat.add_mul]
    have : a * 256 * 256 ^ bs.length = a * (256 ^ bs.length * 256) := by rw [Nat.mul_assoc, Nat.mul_comm 256]
    rw [this, Nat.zero_mul, Nat.zero_add, Nat.add_assoc]

theorem be_cons (b : Byte) (bs : List Byte) : be (b :: bs) = b.toNat * 256 ^ bs.length + be bs := by
  have h := foldl_be bs (0 * 256 + b.toNat)
  simp only [Nat.zero_mul, Nat.zero_add] at h
  simpa [be] using h

theorem be_bytesBE (w n : Nat) : be (bytesBE w n) = n % 256 ^ w := by
  induction w with
  | zero => simp [bytesBE, be, Nat.mod_one]
  | succ w ih =>
    rw [bytesBE, be_cons, length_bytesBE, ih]
    have h1 : (UInt8.ofNat (n / 256 ^ w)).toNat = n / 256 ^ w % 256 := by simp
    rw [h1, Nat.pow_succ, Nat.mod_mul]
    rw [Nat.mul_comm]
    omega

theorem be_bytesBE_lt {w n : Nat} (h : n < 256 ^ w) : be (bytesBE w n) = n := by
  rw [be_bytesBE, Nat.mod_eq_of_lt h]

theorem signed_bytesSigned {w : Nat} {i : Int} {bits : Nat} (h2 : (256 : Nat) ^ w = 2 ^ bits) (hb : 0 < bits) (h : Signed w i) :
    signed bits (be (bytesSigned w i)) = i := by
  obtain ⟨b, rfl⟩ : ∃ b, bits = b + 1 := ⟨bits - 1, by omega⟩
  unfold bytesSigned
  unfold Signed at h
  rw [h2] at h ⊢
  have hp : (0 : Int) < ((2 ^ (b + 1) : Nat) : Int) := by exact_mod_cast Nat.two_pow_pos _
  have h0 := Int.emod_nonneg i (Int.ne_of_gt hp)
  have h1 := Int.emod_lt_of_pos i hp
  have hlt : (i % ((2 ^ (b + 1) : Nat) : Int)).toNat < 256 ^ w := by rw [h2]; omega
  rw [be_bytesBE_lt hlt]
  unfold signed
  simp only [Nat.add_sub_cancel]
  have hs : ((2 ^ (b + 1) : Nat) : Int) = 2 * ((2 ^ b : Nat) : Int) := by rw [Nat.pow_succ]; omega
  have hc : ((i % ((2 ^ (b + 1) : Nat) : Int)).toNat : Int) = i % ((2 ^ (b + 1) : Nat) : Int) := Int.toNat_of_nonneg h0
  by_cases hi : 0 ≤ i
  · have : i % ((2 ^ (b + 1) : Nat) : Int) = i := Int.emod_eq_of_lt hi (by omega)
    rw [if_pos (by omega), hc, this]
  · have : i % ((2 ^ (b + 1) : Nat) : Int) = i + ((2 ^ (b + 1) : Nat) : Int) := by
      rw [← Int.add_emod_right, Int.emod_eq_of_lt (by omega) (by omega)]
    rw [if_neg (by omega), hc, this]
    have : (2 : Int) ^ (b + 1) = ((2 ^ (b + 1) : Nat) : Int) := by push_cast; rfl
    omega

theorem text_unit {s : Str} (h : ByteText s) : (textBytes s).map unit = s := by
  unfold textBytes
  rw [List.map_map]
  conv => rhs; rw [← List.map_id s]
  refine List.map_congr_left fun c hc => ?_
  have hlt := h c hc
  have : (UInt8.ofNat c.toNat).toNat = c.toNat := by
    simp; omega
  simp only [Function.comp, unit, this, id]
  exact Char.ofNat_toNat c

theorem split_append {n : Nat} {a b : List Byte} (h : a.length = n) : split n (a ++ b) = some (a, b) := by
  subst h
  unfold split
  rw [if_pos (by simp)]
  simp

/-- The value reader inside `body`. -/
def value (f : Nat) : List Byte → Option (Node × List Byte)
  | [] => none
  | c :: r => body f c r

theorem many_flat {one : List Byte → Option (Node × List Byte)} (ks : List (Node × List Byte))
    (h : ∀ p ∈ ks, ∀ rest, one (p.2 ++ rest) = some (p.1, rest)) :
    many one ks.length (ks.flatMap Prod.snd) = some (ks.map Prod.fst) := by
  induction ks with
  | nil => rfl
  | cons k ks ih =>
    simp only [List.length_cons, List.flatMap_cons, many, h k (by simp), List.map_cons]
    rw [ih fun p hp => h p (by simp [hp])]
    rfl

theorem body_described (f : Nat) (bs : List Byte) : body (f + 1) 0 bs =
    match value f bs with
    | none => none
    | some (d, r) => (value f r).map fun x => (.mk .described [d, x.1], x.2) := by
  unfold body
  rw [if_pos rfl]
  rfl

theorem body_fixed {f : Nat} {c : Byte} {w : Nat} {mk : Nat → Atom} {bs rest : List Byte} (h0 : c ≠ 0) (h45 : c ≠ 0x45)
    (h : fixed c.toNat = some (w, mk)) (hl : bs.length = w) :
    body (f + 1) c (bs ++ rest) = some (.mk (mk (be bs)) [], rest) := by
  unfold body
  rw [if_neg h0, if_neg h45]
  simp only [h, split_append hl, Option.map_some]

theorem body_text {f : Nat} {c : Byte} {w : Nat} {mk : Str → Atom} {l bs rest : List Byte} (h0 : c ≠ 0) (h45 : c ≠ 0x45)
    (h1 : fixed c.toNat = none) (h : sized c.toNat = some (w, mk)) (hl : l.length = w) (hb : bs.length = be l) :
    body (f + 1) c (l ++ bs ++ rest) = some (.mk (mk (bs.map unit)) [], rest) := by
  unfold body
  rw [if_neg h0, if_neg h45, List.append_assoc]
  simp only [h1, h, split_append hl, split_append hb, Option.map_some]

theorem body_compound {f : Nat} {c : Byte} {w : Nat} {a : Atom} {l n bs rest : List Byte} {ks : List Node} (h0 : c ≠ 0)
    (h45 : c ≠ 0x45) (h1 : fixed c.toNat = none) (h2 : sized c.toNat = none) (h : compound c.toNat = some (w, a)) (hl : l.length = w)
    (hn : n.length = w) (hb : (n ++ bs).length = be l) (hk : many (value f) (be n) bs = some ks) :
    body (f + 1) c (l ++ (n ++ bs) ++ rest) = some (.mk a ks, rest) := by
  unfold body
  rw [if_neg h0, if_neg h45, List.append_assoc]
  simp only [h1, h2, h, split_append hl, split_append hb, split_append hn]
  have hk' := congrArg (Option.map fun ks => (Node.mk a ks, rest)) hk
  exact hk'

theorem body_array {f : Nat} {c e : Byte} {w : Nat} {l n bs rest : List Byte} {ks : List Node} (h0 : c ≠ 0)
    (h45 : c ≠ 0x45) (h1 : fixed c.toNat = none) (h2 : sized c.toNat = none) (h3 : compound c.toNat = none)
    (h : arrayWidth c.toNat = some w) (he : e ≠ 0) (hl : l.length = w) (hn : n.length = w)
    (hb : (n ++ e :: bs).length = be l) (hk : many (body f e) (be n) bs = some ks) :
    body (f + 1) c (l ++ (n ++ e :: bs) ++ rest) = some (.mk .array ks, rest) := by
  unfold body
  rw [if_neg h0, if_neg h45, List.append_assoc]
  simp only [h1, h2, h3, h, split_append hl, split_append hb, split_append hn]
  rw [if_neg he, hk]
  rfl

/-- Each form of fixed width is read back. -/
theorem fixed_back {c : Byte} {bs : List Byte} {a : Atom} (h : Fixed c bs a) (f : Nat) (rest : List Byte) :
    body (f + 1) c (bs ++ rest) = some (.mk a [], rest) := by
  cases h
  case null => exact body_fixed (c := 0x40) (w := 0) (mk := fun _ => .null) (bs := []) (by decide) (by decide) rfl rfl
  case true => exact body_fixed (c := 0x41) (w := 0) (mk := fun _ => .bool true) (bs := []) (by decide) (by decide) rfl rfl
  case false => exact body_fixed (c := 0x42) (w := 0) (mk := fun _ => .bool false) (bs := []) (by decide) (by decide) rfl rfl
  case bool b =>
    cases b
    · exact body_fixed (c := 0x56) (bs := [0]) (by decide) (by decide) rfl rfl
    · exact body_fixed (c := 0x56) (bs := [1]) (by decide) (by decide) rfl rfl
  case uint0 => exact body_fixed (c := 0x43) (w := 0) (mk := fun _ => .uint 0) (bs := []) (by decide) (by decide) rfl rfl
  case ulong0 => exact body_fixed (c := 0x44) (w := 0) (mk := fun _ => .ulong 0) (bs := []) (by decide) (by decide) rfl rfl
  case ubyte n h => rw [body_fixed (by decide) (by decide) rfl (length_bytesBE _ _), be_bytesBE_lt h]
  case ushort n h => rw [body_fixed (by decide) (by decide) rfl (length_bytesBE _ _), be_bytesBE_lt (by omega)]
  case uint n h => rw [body_fixed (by decide) (by decide) rfl (length_bytesBE _ _), be_bytesBE_lt (by omega)]
  case smalluint n h => rw [body_fixed (by decide) (by decide) rfl (length_bytesBE _ _), be_bytesBE_lt (by omega)]
  case ulong n h => rw [body_fixed (by decide) (by decide) rfl (length_bytesBE _ _), be_bytesBE_lt (by omega)]
  case smallulong n h => rw [body_fixed (by decide) (by decide) rfl (length_bytesBE _ _), be_bytesBE_lt (by omega)]
  case float n h => rw [body_fixed (by decide) (by decide) rfl (length_bytesBE _ _), be_bytesBE_lt (by omega)]
  case double n h => rw [body_fixed (by decide) (by decide) rfl (length_bytesBE _ _), be_bytesBE_lt (by omega)]
  case decimal32 n h => rw [body_fixed (by decide) (by decide) rfl (length_bytesBE _ _), be_bytesBE_lt (by omega)]
  case decimal64 n h => rw [body_fixed (by decide) (by decide) rfl (length_bytesBE _ _), be_bytesBE_lt (by omega)]
  case decimal128 n h => rw [body_fixed (by decide) (by decide) rfl (length_bytesBE _ _), be_bytesBE_lt (by omega)]
  case char n h => rw [body_fixed (by decide) (by decide) rfl (length_bytesBE _ _), be_bytesBE_lt (by omega)]
  case uuid n h => rw [body_fixed (by decide) (by decide) rfl (length_bytesBE _ _), be_bytesBE_lt (by omega)]
  case byte i h =>
    rw [body_fixed (by decide) (by decide) rfl (length_bytesSigned _ _), signed_bytesSigned (by decide) (by decide) h]
  case short i h =>
    rw [body_fixed (by decide) (by decide) rfl (length_bytesSigned _ _), signed_bytesSigned (by decide) (by decide) h]
  case int i h =>
    rw [body_fixed (by decide) (by decide) rfl (length_bytesSigned _ _), signed_bytesSigned (by decide) (by decide) h]
  case smallint i h =>
    rw [body_fixed (by decide) (by decide) rfl (length_bytesSigned _ _), signed_bytesSigned (by decide) (by decide) h]
  case long i h =>
    rw [body_fixed (by decide) (by decide) rfl (length_bytesSigned _ _), signed_bytesSigned (by decide) (by decide) h]
  case smalllong i h =>
    rw [body_fixed (by decide) (by decide) rfl (length_bytesSigned _ _), signed_bytesSigned (by decide) (by decide) h]
  case timestamp i h =>
    rw [body_fixed (by decide) (by decide) rfl (length_bytesSigned _ _), signed_bytesSigned (by decide) (by decide) h]

private theorem le_flatMap {ks : List (Node × List Byte)} {p : Node × List Byte} (h : p ∈ ks) :
    p.2.length ≤ (ks.flatMap Prod.snd).length := by
  induction ks with
  | nil => cases h
  | cons k ks ih =>
    rw [List.flatMap_cons, List.length_append]
    rcases List.mem_cons.mp h with rfl | h
    · omega
    · have := ih h; omega

/-- Every encoding is read back, whatever follows. -/
theorem enc_back {o : Option Byte} {bs : List Byte} {n : Node} (h : Enc o bs n) : ∀ f, bs.length ≤ f → ∀ rest,
    (match o with
      | none => value f (bs ++ rest)
      | some c => body (f + 1) c (bs ++ rest)) = some (n, rest) := by
  induction h with
  | value c bs n h ih =>
    intro f hf rest
    simp only [List.length_cons] at hf
    obtain ⟨g, rfl⟩ : ∃ g, f = g + 1 := ⟨f - 1, by omega⟩
    exact ih g (by omega) rest
  | described b1 b2 d v h1 h2 ih1 ih2 =>
    intro f hf rest
    simp only [List.length_append] at hf
    have e1 := ih1 f (by omega) (b2 ++ rest)
    have e2 := ih2 f (by omega) rest
    simp only at e1 e2 ⊢
    rw [body_described, List.append_assoc, e1]
    simp only [e2, Option.map_some]
  | fixed c bs a h => intro f _ rest; exact fixed_back h f rest
  | text c w k s hf hs hl =>
    intro f _ rest
    have hlen : (textBytes s).length = be (bytesBE w s.length) := by rw [be_bytesBE_lt hl]; simp [textBytes]
    simp only
    cases hf <;> rw [body_text (by decide) (by decide) rfl rfl (length_bytesBE _ _) hlen, text_unit hs]
  | list0 => intro f _ rest; rfl
  | compound c w a ks hf hk hm hs hc ih =>
    intro f hfu rest
    simp only [List.length_append, length_bytesBE] at hfu
    have hmany : many (value f) (be (bytesBE w ks.length)) (ks.flatMap Prod.snd) = some (ks.map Prod.fst) := by
      rw [be_bytesBE_lt hc]
      exact many_flat ks fun p hp rest => ih p hp f (by have := le_flatMap hp; omega) rest
    have hb : (bytesBE w ks.length ++ ks.flatMap Prod.snd).length = be (bytesBE w (w + (ks.flatMap Prod.snd).length)) := by
      rw [be_bytesBE_lt hs, List.length_append, length_bytesBE]
    simp only
    cases hf <;> exact body_compound (by decide) (by decide) rfl rfl rfl (length_bytesBE _ _) (length_bytesBE _ _) hb hmany
  | array c w e ks hf he hk hs hc ih =>
    intro f hfu rest
    simp only [List.length_append, length_bytesBE, List.length_cons] at hfu
    obtain ⟨g, rfl⟩ : ∃ g, f = g + 1 := ⟨f - 1, by omega⟩
    have hmany : many (body (g + 1) e) (be (bytesBE w ks.length)) (ks.flatMap Prod.snd) = some (ks.map Prod.fst) := by
      rw [be_bytesBE_lt hc]
      exact many_flat ks fun p hp rest => ih p hp g (by have := le_flatMap hp; omega) rest
    have hb : (bytesBE w ks.length ++ e :: ks.flatMap Prod.snd).length
        = be (bytesBE w (w + 1 + (ks.flatMap Prod.snd).length)) := by
      rw [be_bytesBE_lt hs, List.length_append, length_bytesBE, List.length_cons]; omega
    simp only
    cases hf <;> exact body_array (by decide) (by decide) rfl rfl rfl rfl he (length_bytesBE _ _) (length_bytesBE _ _) hb hmany

/-! ### The wide encoding -/

private theorem wides_eq (ks : List Node) : wides ks = (ks.map fun k => (k, wide k)).flatMap Prod.snd := by
  induction ks with
  | nil => rfl
  | cons k ks ih => rw [wides, ih]; rfl

private theorem fst_pairs (ks : List Node) : (ks.map fun k => (k, wide k)).map Prod.fst = ks := by
  rw [List.map_map]
  conv => rhs; rw [← List.map_id ks]
  exact List.map_congr_left fun k _ => rfl

theorem wide_atom {a : Atom} (h : InRange a) : Enc none (wideAtom a) (.mk a []) := by
  cases a with
  | null => exact .value _ _ _ (.fixed _ _ _ .null)
  | bool b =>
    cases b
    · exact .value _ _ _ (.fixed _ _ _ .false)
    · exact .value _ _ _ (.fixed _ _ _ .true)
  | ubyte n => exact .value _ _ _ (.fixed _ _ _ (.ubyte n h))
  | byte i => exact .value _ _ _ (.fixed _ _ _ (.byte i h))
  | ushort n => exact .value _ _ _ (.fixed _ _ _ (.ushort n h))
  | short i => exact .value _ _ _ (.fixed _ _ _ (.short i h))
  | uint n => exact .value _ _ _ (.fixed _ _ _ (.uint n h))
  | int i => exact .value _ _ _ (.fixed _ _ _ (.int i h))
  | char n => exact .value _ _ _ (.fixed _ _ _ (.char n h))
  | ulong n => exact .value _ _ _ (.fixed _ _ _ (.ulong n h))
  | long i => exact .value _ _ _ (.fixed _ _ _ (.long i h))
  | timestamp i => exact .value _ _ _ (.fixed _ _ _ (.timestamp i h))
  | float n => exact .value _ _ _ (.fixed _ _ _ (.float n h))
  | double n => exact .value _ _ _ (.fixed _ _ _ (.double n h))
  | decimal32 n => exact .value _ _ _ (.fixed _ _ _ (.decimal32 n h))
  | decimal64 n => exact .value _ _ _ (.fixed _ _ _ (.decimal64 n h))
  | decimal128 n => exact .value _ _ _ (.fixed _ _ _ (.decimal128 n h))
  | uuid n => exact .value _ _ _ (.fixed _ _ _ (.uuid n h))
  | binary s => exact .value _ _ _ (.text _ _ _ s .vbin32 h.1 (by have := h.2; omega))
  | string s => exact .value _ _ _ (.text _ _ _ s .str32 h.1 (by have := h.2; omega))
  | symbol s => exact .value _ _ _ (.text _ _ _ s .sym32 h.1 (by have := h.2; omega))
  | described => exact h.elim
  | array => exact h.elim
  | list => exact h.elim
  | map => exact h.elim

private theorem wide_ne_nil {n : Node} (h : Proper n) : 1 ≤ (wide n).length := by
  cases h with
  | atom a h => cases a <;> first | exact h.elim | simp [wide, wideAtom]
  | described d v hd hv => simp [wide]
  | list ks h => simp [wide]
  | map ks h hm => simp [wide]

private theorem length_le_wides {ks : List Node} (h : ∀ k ∈ ks, Proper k) : ks.length ≤ (wides ks).length := by
  induction ks with
  | nil => simp
  | cons k ks ih =>
    have h1 := wide_ne_nil (h k (by simp))
    have h2 := ih fun k hk => h k (by simp [hk])
    simp only [wides, List.length_append, List.length_cons]
    omega

private theorem wide_le_wides {ks : List Node} {k : Node} (h : k ∈ ks) : (wide k).length ≤ (wides ks).length := by
  induction ks with
  | nil => cases h
  | cons m ks ih =>
    simp only [wides, List.length_append]
    rcases List.mem_cons.mp h with rfl | h
    · omega
    · have := ih h; omega

/-- Every proper tree has an encoding. -/
theorem wide_encodes {n : Node} (h : Proper n) (hl : (wide n).length < 2 ^ 32) : Enc none (wide n) n := by
  induction h with
  | atom a h =>
    cases a <;> first | exact h.elim | exact wide_atom h
  | described d v hd hv ihd ihv =>
    simp only [wide, wides, List.append_nil, List.length_cons, List.length_append] at hl ⊢
    exact .value _ _ _ (.described _ _ _ _ (ihd (by omega)) (ihv (by omega)))
  | list ks h ih =>
    have hc := length_le_wides h
    simp only [wide, List.length_cons, List.length_append, length_bytesBE] at hl ⊢
    refine .value _ _ _ ?_
    have key := Enc.compound 0xd0 4 .list (ks.map fun k => (k, wide k)) .list32
      (by
        intro p hp
        obtain ⟨k, hk, rfl⟩ := List.mem_map.mp hp
        exact ih k hk (by have := wide_le_wides hk; omega))
      (by simp) (by rw [← wides_eq]; omega) (by rw [List.length_map]; omega)
    rw [fst_pairs, ← wides_eq, List.length_map] at key
    exact key
  | map ks h hm ih =>
    have hc := length_le_wides h
    simp only [wide, List.length_cons, List.length_append, length_bytesBE] at hl ⊢
    refine .value _ _ _ ?_
    have key := Enc.compound 0xd1 4 .map (ks.map fun k => (k, wide k)) .map32
      (by
        intro p hp
        obtain ⟨k, hk, rfl⟩ := List.mem_map.mp hp
        exact ih k hk (by have := wide_le_wides hk; omega))
      (by intro _; rw [List.length_map]; exact hm) (by rw [← wides_eq]; omega) (by rw [List.length_map]; omega)
    rw [fst_pairs, ← wides_eq, List.length_map] at key
    exact key

/-! ### More bytes behind do no harm -/

private theorem split_more {n : Nat} {bs a b : List Byte} (x : List Byte) (h : split n bs = some (a, b)) :
    split n (bs ++ x) = some (a, b ++ x) := by
  unfold split at h ⊢
  split at h
  · rename_i hn
    simp only [Option.some.injEq, Prod.mk.injEq] at h
    rw [if_pos (by rw [List.length_append]; omega), List.take_append_of_le_length hn, List.drop_append_of_le_length hn, h.1, h.2]
  · cases h

private theorem many_mono {one two : List Byte → Option (Node × List Byte)}
    (h : ∀ bs v r, one bs = some (v, r) → two bs = some (v, r)) {n : Nat} {bs : List Byte} {ks : List Node}
    (hm : many one n bs = some ks) : many two n bs = some ks := by
  induction n generalizing bs ks with
  | zero => cases bs with
    | nil => exact hm
    | cons b bs => exact hm
  | succ n ih =>
    simp only [many] at hm ⊢
    cases ho : one bs with
    | none => rw [ho] at hm; cases hm
    | some p =>
      obtain ⟨v, r⟩ := p
      rw [ho] at hm
      rw [h _ _ _ ho]
      simp only at hm ⊢
      cases hr : many one n r with
      | none => rw [hr] at hm; cases hm
      | some ls => rw [hr] at hm; rw [ih hr]; exact hm

/-- Reading goes the same way with more depth allowed and more bytes behind. -/
theorem body_more {f g : Nat} {c : Byte} {bs rest : List Byte} {n : Node} (x : List Byte) (hg : f ≤ g)
    (h : body f c bs = some (n, rest)) : body g c (bs ++ x) = some (n, rest ++ x) := by
  induction f generalizing g c bs rest n x with
  | zero => cases h
  | succ f ih =>
    obtain ⟨g, rfl⟩ : ∃ k, g = k + 1 := ⟨g - 1, by omega⟩
    have hv : ∀ {bs r v} (x : List Byte), value f bs = some (v, r) → value g (bs ++ x) = some (v, r ++ x) := by
      intro bs r v x hv
      cases bs with
      | nil => cases hv
      | cons d ds => exact ih x (by omega) hv
    have hv0 : ∀ bs v r, value f bs = some (v, r) → value g bs = some (v, r) := by
      intro bs v r hb
      have := hv [] hb
      simpa using this
    have hb0 : ∀ c bs v r, body f c bs = some (v, r) → body g c bs = some (v, r) := by
      intro c bs v r hb
      have := ih [] (show f ≤ g by omega) hb
      simpa using this
    by_cases h0 : c = 0
    · subst h0
      rw [body_described] at h ⊢
      cases h1 : value f bs with
      | none => rw [h1] at h; cases h
      | some p =>
        obtain ⟨d, r⟩ := p
        rw [h1] at h
        rw [hv x h1]
        simp only at h ⊢
        cases h2 : value f r with
        | none => rw [h2] at h; cases h
        | some q =>
          obtain ⟨v, r'⟩ := q
          rw [h2] at h
          rw [hv x h2]
          simp only [Option.map_some, Option.some.injEq, Prod.mk.injEq] at h ⊢
          exact ⟨h.1, by rw [h.2]⟩
    · by_cases h45 : c = 0x45
      · subst h45
        rw [show body (f + 1) 0x45 bs = some (.mk .list [], bs) from rfl] at h
        rw [show body (g + 1) 0x45 (bs ++ x) = some (.mk .list [], bs ++ x) from rfl]
        cases h
        rfl
      · unfold body at h ⊢
        rw [if_neg h0, if_neg h45] at h ⊢
        split at h
        · rename_i w mk hfx
          cases hs : split w bs with
          | none => rw [hs] at h; cases h
          | some p =>
            obtain ⟨a, b⟩ := p
            rw [hs] at h
            rw [split_more x hs]
            simp only [Option.map_some, Option.some.injEq, Prod.mk.injEq] at h ⊢
            exact ⟨h.1, by rw [h.2]⟩
        · split at h
          · rename_i w mk hsz
            cases hs : split w bs with
            | none => rw [hs] at h; cases h
            | some p =>
              obtain ⟨a, b⟩ := p
              rw [hs] at h
              rw [split_more x hs]
              simp only at h ⊢
              cases hs2 : split (be a) b with
              | none => rw [hs2] at h; cases h
              | some q =>
                obtain ⟨a2, b2⟩ := q
                rw [hs2] at h
                rw [split_more x hs2]
                simp only [Option.map_some, Option.some.injEq, Prod.mk.injEq] at h ⊢
                exact ⟨h.1, by rw [h.2]⟩
          · split at h
            · rename_i w a hcp
              cases hs : split w bs with
              | none => rw [hs] at h; cases h
              | some p =>
                obtain ⟨l, r⟩ := p
                rw [hs] at h
                rw [split_more x hs]
                simp only at h ⊢
                cases hs2 : split (be l) r with
                | none => rw [hs2] at h; cases h
                | some q =>
                  obtain ⟨inner, r2⟩ := q
                  rw [hs2] at h
                  rw [split_more x hs2]
                  simp only at h ⊢
                  cases hs3 : split w inner with
                  | none => rw [hs3] at h; cases h
                  | some q =>
                    obtain ⟨m, inner2⟩ := q
                    rw [hs3] at h
                    simp only at h ⊢
                    have h' : (many (value f) (be m) inner2).map (fun ks => (Node.mk a ks, r2)) = some (n, rest) := h
                    show (many (value g) (be m) inner2).map (fun ks => (Node.mk a ks, r2 ++ x)) = some (n, rest ++ x)
                    cases hm : many (value f) (be m) inner2 with
                    | none => rw [hm] at h'; cases h'
                    | some ks =>
                      rw [hm] at h'
                      rw [many_mono hv0 hm]
                      simp only [Option.map_some, Option.some.injEq, Prod.mk.injEq] at h' ⊢
                      exact ⟨h'.1, by rw [h'.2]⟩
            · split at h
              · rename_i w haw
                cases hs : split w bs with
                | none => rw [hs] at h; cases h
                | some p =>
                  obtain ⟨l, r⟩ := p
                  rw [hs] at h
                  rw [split_more x hs]
                  simp only at h ⊢
                  cases hs2 : split (be l) r with
                  | none => rw [hs2] at h; cases h
                  | some q =>
                    obtain ⟨inner, r2⟩ := q
                    rw [hs2] at h
                    rw [split_more x hs2]
                    simp only at h ⊢
                    split at h
                    · rename_i m e inner2 hs3
                      split at h
                      · cases h
                      · rename_i he
                        rw [if_neg he]
                        cases hm : many (body f e) (be m) inner2 with
                        | none => rw [hm] at h; cases h
                        | some ks =>
                          rw [hm] at h
                          rw [many_mono (hb0 e) hm]
                          simp only [Option.map_some, Option.some.injEq, Prod.mk.injEq] at h ⊢
                          exact ⟨h.1, by rw [h.2]⟩
                    · cases h
              · cases h

end Corda.Wire
