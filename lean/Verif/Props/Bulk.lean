import Verif.Lemmas.BulkData
import Verif.Lemmas.BulkRaw
import Verif.Props.AnyData
import Verif.Props.AnyInspect
import Verif.Props.AnyAvro
import Verif.Props.AnySchemaDump
import Verif.Props.Wire

/-
C98: how much the tools print for a file of a certain length.
-/

namespace Corda.Props
open Corda Prog Spec

/-! ### What can be said -/

/-- **C98, decoding**: a tree is at most 37 times as big as its encoding. -/
theorem C98_decoded {bs : List Byte} {u : Nat} {n : Node} (h : Wire.decode bs = some (u, n)) : mass n ≤ 37 * bs.length := by
  have := Wire.decode_mass h
  omega

/-- A tree is found behind the first eight bytes of a file. -/
def InFile (file : List Byte) (n : Node) : Prop := Wire.decode (file.drop 8) = some (file.length - 8, n)

private theorem fits {file : List Byte} (h : file.length < 2 ^ 63) : FilesFit (holding file) := by
  intro p c hc
  cases hc
  exact h

private theorem in_file {file hdr payload : List Byte} {n : Node} (hl : hdr.length = 7) (hf : file = hdr ++ 0 :: payload)
    (hd : Wire.decode payload = some (payload.length, n)) : InFile file n ∧ mass n ≤ 37 * (file.length - 8) ∧ 9 ≤ file.length := by
  have h1 : file.drop 8 = payload := by
    rw [hf, show hdr ++ 0 :: payload = (hdr ++ [0]) ++ payload by simp, show 8 = (hdr ++ [(0 : Byte)]).length by simp [hl],
      List.drop_left]
  have h2 : file.length = 8 + payload.length := by rw [hf]; simp only [List.length_append, List.length_cons, hl]; omega
  have h3 := C98_decoded hd
  have h4 := mass_pos n
  refine ⟨?_, by omega, by omega⟩
  unfold InFile
  rw [h1, hd, h2]
  simp

/-- Squares. -/
private theorem square {a b c N M : Nat} (hM : M ≤ 37 * (N - 8)) (hN : 9 ≤ N) (hc : a * 1369 + b * 5 + 1 ≤ c) :
    (a * M + b) * M + 1 ≤ c * N ^ 2 := by
  have h1 : (a * M + b) * M ≤ (a * (37 * N) + b) * (37 * N) :=
    Nat.mul_le_mul (Nat.add_le_add_right (Nat.mul_le_mul_left _ (by omega)) _) (by omega)
  have h2 : (a * (37 * N) + b) * (37 * N) = a * 1369 * (N * N) + b * (37 * N) := by
    rw [Nat.add_mul]
    congr 1
    rw [show 1369 = 37 * 37 from rfl]
    simp only [Nat.mul_assoc, Nat.mul_left_comm]
  have h3 : b * (37 * N) ≤ b * (5 * (N * N)) := Nat.mul_le_mul_left _ (by
    have : 9 * N ≤ N * N := Nat.mul_le_mul_right _ hN
    omega)
  have h4 : b * (5 * (N * N)) = b * 5 * (N * N) := by rw [Nat.mul_assoc]
  have h5 : (a * 1369 + b * 5 + 1) * (N * N) ≤ c * (N * N) := Nat.mul_le_mul_right _ hc
  rw [Nat.add_mul, Nat.add_mul] at h5
  have h6 : 9 * N ≤ N * N := Nat.mul_le_mul_right _ hN
  rw [Nat.pow_two]
  omega

/-- The text of a blob in which nothing is missing. -/
private theorem inspected {leftFirst : Bool} {n : Node} {s : Str} (hf : Filled n) (h : inspectionOf leftFirst n = .ok s) :
    s.length ≤ (1 * mass n + 40) * mass n := by
  unfold inspectionOf at h
  replace h := Res.bind_eq_ok.mp h
  obtain ⟨⟨sch, d⟩, he, h⟩ := h
  replace h := Res.bind_eq_ok.mp h
  obtain ⟨T, -, h⟩ := h
  have hn := envelopeFrom_short he
  split at h
  · cases h
  · next u _ =>
    replace h := Res.bind_eq_ok.mp h
    obtain ⟨p, hp, h⟩ := h
    replace h := Res.bind_eq_ok.mp h
    obtain ⟨x, hx, h⟩ := h
    simp only [Res.pure_eq, Res.ok.injEq] at h
    cases p with
    | none =>
      exfalso
      unfold payloadIn at hp
      replace hp := Res.bind_eq_ok.mp hp
      obtain ⟨ps, -, hp⟩ := hp
      split at hp
      · next hl =>
        simp only [Res.ok.injEq] at hp
        obtain ⟨m, hm⟩ := nth_isSome (ps := ps) 0 (by intro e; rw [e] at hl; cases hl)
        rw [hm] at hp
        cases hp
      · cases hp
    | some p =>
      have hc := hf sch d p he hp
      have h1 := textIn_length (L := mass n) hn _ _ _ p x hc hx
      have h2 : mass p + 2 ≤ mass n := by
        unfold payloadIn at hp
        replace hp := Res.bind_eq_ok.mp hp
        obtain ⟨ps, hq, hp⟩ := hp
        have e1 := list_of_parts hq
        split at hp
        · simp only [Res.ok.injEq] at hp
          have e2 := massOf_nth ps 0
          rw [hp, massOf] at e2
          have e3 := masses_lt (a := .list) (ks := ps) (by simp)
          have e4 := solid_le (n := n) (nth_mem e1) (solid_kid (n := .mk .list ps) hp)
          have : ink .list = 0 := rfl
          omega
        · cases hp
      have h3 : (mass n + 40) * (mass p + 2) ≤ (mass n + 40) * mass n := Nat.mul_le_mul_left _ h2
      have h4 := Nat.mul_add (mass n + 40) (mass p) 2
      have key : ∀ a b : Str, a.length = 11 → b.length = 2 → (a ++ x ++ b).length = x.length + 13 := by
        intro a b ha hb
        simp only [List.length_append]; omega
      have h5 := key "{ Parsed : ".toList " }".toList rfl rfl
      rw [h] at h5
      rw [Nat.one_mul]
      omega

/-- **C98, the blob inspector**, partial: if every object in the blob has at least as many parts as its class has properties, and
every map an even number of parts, the output is at most quadratic in the length of the file.  Missing: other blobs. -/
theorem C98_inspector_partial (leftFirst : Bool) (file : List Byte) (hs : file.length < 2 ^ 63) (path out : Str)
    (h : blobInspector leftFirst (holding file) [path] = .exit 0 out) (hf : ∀ n, InFile file n → Filled n) :
    out.length ≤ 1600 * file.length ^ 2 := by
  obtain ⟨path', n, s, hp, ⟨hdr, payload, hl, hfile, hd⟩, hx, rfl⟩ := (C68_blob_inspector leftFirst _ (fits hs) _ _).mp h
  obtain ⟨h1, h2, h3⟩ := in_file hl (Option.some.inj hfile) hd
  rw [C92_any leftFirst _ n rfl] at hx
  have h4 := inspected (hf n h1) hx
  have h5 := square (a := 1) (b := 40) (c := 1600) h2 h3 (by omega)
  rw [List.length_append, List.length_singleton]
  omega

/-- **C98, the data dumper**, partial: if there is no map in the blob, the output is at most 900 times as long as the file.
Missing: blobs with maps. -/
theorem C98_data_partial (file : List Byte) (hs : file.length < 2 ^ 63) (path out : Str)
    (h : dataDumper (holding file) [path] = .exit 0 out) (hm : ∀ n, InFile file n → NoMaps n) : out.length ≤ 900 * file.length := by
  obtain ⟨path', n, s, hp, ⟨payload, hfile, hd⟩, hx, rfl⟩ := (C68_data_dumper _ (fits hs) _ _).mp h
  obtain ⟨h1, h2, h3⟩ := in_file magic_length (Option.some.inj hfile) hd
  rw [C85_data] at hx
  have h4 := dataText_length (hm n h1) hx
  rw [List.length_append, List.length_singleton]
  omega

/-- **C98, the schema dumper with `raw`**, partial: if no envelope in the blob has a single part, the output is at most quadratic in
the length of the file.  Missing: envelopes with one part. -/
theorem C98_raw_partial (file : List Byte) (hs : file.length < 2 ^ 63) (path out : Str)
    (h : schemaDumper (holding file) [path, "raw".toList] = .exit 0 out) (hn : ∀ n, InFile file n → NoLoneParts n) :
    out.length ≤ 170000 * file.length ^ 2 := by
  obtain ⟨path', flag, t, n, s, hp, hm, ⟨payload, hfile, hd⟩, hx, rfl⟩ := (C68_schema_dumper _ (fits hs) _ _).mp h
  obtain ⟨h1, h2, h3⟩ := in_file magic_length (Option.some.inj hfile) hd
  simp only [List.cons.injEq, and_true] at hp
  obtain ⟨-, rfl⟩ := hp
  rcases hm with ⟨hm, -⟩ | ⟨-, rfl⟩
  · exact absurd hm (by decide)
  rw [C90_any _ n rfl] at hx
  have h4 := rawDump_length (hn n h1) hx
  have h5 := square (a := 120) (b := 700) (c := 170000) h2 h3 (by omega)
  rw [List.length_append, List.length_singleton]
  omega

private theorem inside_of_within {m n : Node} (h : Spec.Within m n) : Inside m n := by
  induction h with
  | self => exact .here _
  | part hk _ ih => exact inside_trans ih (inside_kid hk)

private theorem small_texts {n : Node} (h : mass n < 2 ^ 63) : SmallTexts n := by
  intro m hm s hs
  have hi := inside_of_within hm
  have h1 := solid_inside hi (by rcases hs with hs | hs <;> simp only [solid, hs])
  have h2 := ink_lt m
  rcases hs with hs | hs <;> rw [hs, ink] at h2 <;> (show s.length < _; omega)

/-- **C98, the schema dumper with `avro`**: the output is at most quadratic in the length of the file, whatever is in it. -/
theorem C98_avro (file : List Byte) (hs : file.length < 2 ^ 57) (path out : Str)
    (h : schemaDumper (holding file) [path, "avro".toList] = .exit 0 out) : out.length ≤ 50000 * file.length ^ 2 := by
  obtain ⟨path', flag, t, n, s, hp, hm, ⟨payload, hfile, hd⟩, hx, rfl⟩ := (C68_schema_dumper _ (fits (by omega)) _ _).mp h
  obtain ⟨h1, h2, h3⟩ := in_file magic_length (Option.some.inj hfile) hd
  simp only [List.cons.injEq, and_true] at hp
  obtain ⟨-, rfl⟩ := hp
  rcases hm with ⟨-, rfl⟩ | ⟨hm, -⟩
  case inr => exact absurd hm (by decide)
  rw [C91_any _ n rfl (small_texts (by omega))] at hx
  have h4 := avroDump_length hx
  have h5 := square (a := 30) (b := 250) (c := 50000) h2 h3 (by omega)
  rw [List.length_append, List.length_singleton]
  omega

/-! ### Small files with long outputs -/

/-- A file with a tree in it. -/
def fileOf (n : Node) : List Byte := magic ++ 0 :: wide n

private theorem fileOf_length (n : Node) : (fileOf n).length = 8 + (wide n).length := by
  simp only [fileOf, List.length_append, List.length_cons, magic_length]; omega

private theorem fileOf_holds {n : Node} (hp : Proper n) (hl : (wide n).length < 2 ^ 32) (path : Str) :
    HoldsBlob (holding (fileOf n)) path n := by
  refine ⟨wide n, rfl, ?_⟩
  have := C71_decoded (Wire.wide_encodes hp hl) []
  rwa [List.append_nil] at this

private instance (s : Str) : Decidable (ByteText s) := inferInstanceAs (Decidable (∀ c ∈ s, c.toNat < 256))

private theorem proper_sym (s : Str) (h : ByteText s) (hl : s.length < 2 ^ 32) : Proper (.mk (.symbol s) []) := .atom _ ⟨h, hl⟩
private theorem proper_described {s : Str} {v : Node} (h : ByteText s) (hl : s.length < 2 ^ 32) (hv : Proper v) :
    Proper (described s v) := .described _ _ (proper_sym s h hl) hv
private theorem proper_element {k : Nat} {ps : List Node} (hk : k < 2 ^ 32) (h : ∀ p ∈ ps, Proper p) : Proper (element k ps) :=
  .described _ _ (.atom (.ulong _) (show cordaId k < 2 ^ 64 by unfold cordaId; omega)) (.list _ h)

private theorem wide_list (ks : List Node) : (wide (.mk .list ks)).length = 9 + (wides ks).length := by
  simp only [wide, List.length_cons, List.length_append, Wire.length_bytesBE]; omega
private theorem wide_map (ks : List Node) : (wide (.mk .map ks)).length = 9 + (wides ks).length := by
  simp only [wide, List.length_cons, List.length_append, Wire.length_bytesBE]; omega
private theorem wide_described (d v : Node) : (wide (.mk .described [d, v])).length = 1 + (wide d).length + (wide v).length := by
  simp only [wide, wides, List.length_cons, List.length_append, List.length_nil]; omega
private theorem wide_symbol (s : Str) : (wide (.mk (.symbol s) [])).length = 5 + s.length := by
  simp only [wide, wideAtom, List.length_cons, List.length_append, Wire.length_bytesBE, textBytes, List.length_map]; omega
private theorem wide_ulong (k : Nat) : (wide (.mk (.ulong k) [])).length = 9 := by
  simp only [wide, wideAtom, List.length_cons, Wire.length_bytesBE]
private theorem wides_cons (k : Node) (ks : List Node) : (wides (k :: ks)).length = (wide k).length + (wides ks).length := by
  simp only [wides, List.length_append]
private theorem wides_nil : (wides []).length = 0 := rfl
private theorem wide_element (k : Nat) (ps : List Node) : (wide (element k ps)).length = 19 + (wides ps).length := by
  unfold element
  rw [wide_described, wide_ulong, wide_list]; omega

/-! The blob inspector: objects of a class with two properties, in which the second is missing. -/

def nameA : Str := ['A']
def nameFp : Str := ['f', 'p']

/-- A class with two properties of its own type. -/
def twoFields : List Node :=
  [fieldTree ['a'] nameA [] [] [] false false, fieldTree ['b'] nameA [] [] [] false false]

def twoSchema : Node := schemaTree [compositeTree nameA [] [] nameFp twoFields]

/-- Objects in objects; every one has its first property only. -/
def halfObjects : Nat → Node
  | 0 => .mk .null []
  | k + 1 => described nameFp (.mk .list [halfObjects k])

def halfBlob (k : Nat) : Node := envelopeTree (halfObjects (k + 1)) twoSchema (.mk .null [])

/-- What is shown for them. -/
def halfText : Nat → Str
  | 0 => absent
  | k + 1 => braces [colon ['a'] (halfText k), colon ['b'] (halfText k)]

def fieldA : Field := ⟨.composite, ['a'], nameA, [], [], [], false, false, []⟩
def fieldB : Field := ⟨.composite, ['b'], nameA, [], [], [], false, false, []⟩
def classA : Composite := ⟨nameA, [], [], nameFp, [fieldA, fieldB]⟩
def tableA : Table := [(nameA, .type (.comp classA)), (keyType, .key)]

private theorem half_types : (fun s : Schema => s.types.flatten) <$> (elementIn twoSchema.height (some twoSchema) >>= asKind theSchema)
    = .ok [.comp classA] := by decide +kernel

private theorem half_table (leftFirst : Bool) : learnAll leftFirst onlyKeys [.comp classA] = .ok tableA := by
  cases leftFirst <;> decide +kernel

theorem half_shown (leftFirst : Bool) (k : Nat) : ∀ depth named, k < depth →
    textIn leftFirst [.comp classA] tableA depth named nameA (some (halfObjects k)) = .ok (halfText k) := by
  induction k with
  | zero =>
    intro depth named h
    obtain ⟨d, rfl⟩ : ∃ d, depth = d + 1 := ⟨depth - 1, by omega⟩
    rfl
  | succ k ih =>
    intro depth named h
    obtain ⟨d, rfl⟩ : ∃ d, depth = d + 1 := ⟨depth - 1, by omega⟩
    have h1 := ih d true (by omega)
    have h2 : propertyTexts [.comp classA] (textIn leftFirst [.comp classA] tableA d) classA (some (halfObjects (k + 1)))
        = all [(colon ['a']) <$> textIn leftFirst [.comp classA] tableA d true nameA (some (halfObjects k)),
            (colon ['b']) <$> textIn leftFirst [.comp classA] tableA d true nameA (some (halfObjects k))] := rfl
    show braces <$> propertyTexts [.comp classA] (textIn leftFirst [.comp classA] tableA d) classA (some (halfObjects (k + 1))) = _
    rw [h2, h1]
    rfl

theorem half_long (k : Nat) : 2 ^ k ≤ (halfText k).length := by
  induction k with
  | zero => decide
  | succ k ih =>
    have : ∀ a b c d : Str, ∀ l : Str → Str → Str, (∀ x y, x.length + y.length ≤ (l x y).length) →
        2 * (halfText k).length ≤ (a ++ l (colon b (halfText k)) (colon c (halfText k)) ++ d).length := by
      intro a b c d l hl
      have := hl (colon b (halfText k)) (colon c (halfText k))
      simp only [List.length_append, colon] at this ⊢
      omega
    have h := this "{ ".toList ['a'] ['b'] " }".toList (fun x y => commas [x, y]) (by
      intro x y
      have : ∀ c : Str, x.length + y.length ≤ (List.intercalate c [x, y]).length := by
        intro c
        simp [List.intercalate]
      exact this _)
    rw [Nat.pow_succ]
    show _ ≤ (braces [colon ['a'] (halfText k), colon ['b'] (halfText k)]).length
    unfold braces
    omega

theorem half_height (k : Nat) : k < (halfObjects k).height := by
  induction k with
  | zero => decide
  | succ k ih =>
    have h1 := height_kids (v := .list) (ks := [halfObjects k]) (k := halfObjects k) (by simp)
    have h2 := height_kids (v := .described) (ks := [.mk (.symbol nameFp) [], .mk .list [halfObjects k]])
      (k := .mk .list [halfObjects k]) (by simp)
    show _ < (Node.mk .described [.mk (.symbol nameFp) [], .mk .list [halfObjects k]]).height
    omega

/-- What is shown for an object of that class. -/
theorem two_inspected (leftFirst : Bool) (body : Node) :
    inspectionOf leftFirst (envelopeTree (described nameFp body) twoSchema (.mk .null []))
      = (textIn leftFirst [.comp classA] tableA (described nameFp body).height true nameA (some (described nameFp body)) >>= fun s =>
        pure ("{ Parsed : ".toList ++ s ++ " }".toList)) := by
  obtain ⟨sch, hs, ht⟩ : ∃ sch, (elementIn twoSchema.height (some twoSchema) >>= asKind theSchema) = .ok sch
      ∧ sch.types.flatten = [.comp classA] := by
    have := half_types
    cases he : (elementIn twoSchema.height (some twoSchema) >>= asKind theSchema) with
    | ok s => rw [he] at this; exact ⟨s, rfl, Res.ok.inj this⟩
    | throw m => rw [he] at this; cases this
    | ub m => rw [he] at this; cases this
  generalize hB : envelopeTree (described nameFp body) twoSchema (.mk .null []) = B
  have hh : twoSchema.height ≤ B.height := by
    have h1 := height_kids (v := .list) (ks := [described nameFp body, twoSchema, .mk .null []]) (k := twoSchema) (by simp)
    have h2 := height_kids (v := .described) (ks := [.mk (.ulong (cordaId 1)) [], .mk .list [described nameFp body, twoSchema, .mk .null []]])
      (k := .mk .list [described nameFp body, twoSchema, .mk .null []]) (by simp)
    rw [← hB]
    show _ ≤ (Node.mk .described [.mk (.ulong (cordaId 1)) [], .mk .list [described nameFp body, twoSchema, .mk .null []]]).height
    omega
  have he : envelopeFrom B = .ok (sch, nameFp) := by
    have hid : elementOf (elementIn B.height) (cordaId 1) [described nameFp body, twoSchema, .mk .null []]
        = envelopeOf (elementIn B.height) [described nameFp body, twoSchema, .mk .null []] := by
      unfold elementOf
      rw [if_neg (by decide), if_pos rfl]
    have h2 : envelopeOf (elementIn B.height) [described nameFp body, twoSchema, .mk .null []]
        = ((elementIn B.height (some twoSchema) >>= asKind theSchema) >>= fun s => .ok (.envelope s nameFp)) := by
      show (elementIn B.height (some twoSchema) >>= fun e => asKind theSchema e >>= fun s =>
          pure (Element.envelope s nameFp)) = _
      cases elementIn B.height (some twoSchema) <;> rfl
    have h3 : envelopeFrom B = (elementOf (elementIn B.height) (cordaId 1) [described nameFp body, twoSchema, .mk .null []] >>= fun e =>
        match e with | .envelope s o => Res.ok (s, o) | _ => .ub "null envelope") := by subst hB; rfl
    rw [h3, hid, h2, C89_depth twoSchema _ hh, hs]
    rfl
  have hp : payloadIn B = .ok (some (described nameFp body)) := by subst hB; rfl
  unfold inspectionOf
  rw [he]
  show (learnAll leftFirst onlyKeys sch.types.flatten >>= fun T =>
    match sch.types.flatten.reverse.find? (fun u => u.descriptor == nameFp) with
    | none => .ub "assert"
    | some u => (payloadIn B >>= fun p => textIn leftFirst sch.types.flatten T (depthOf p) true u.name p >>= fun s =>
      pure ("{ Parsed : ".toList ++ s ++ " }".toList))) = _
  rw [ht, half_table, hp]
  rfl

private theorem half_inspected (leftFirst : Bool) (k : Nat) :
    inspectionOf leftFirst (halfBlob k) = .ok ("{ Parsed : ".toList ++ halfText (k + 1) ++ " }".toList) := by
  refine (two_inspected leftFirst (.mk .list [halfObjects k])).trans ?_
  show (textIn leftFirst [.comp classA] tableA (halfObjects (k + 1)).height true nameA (some (halfObjects (k + 1))) >>= fun s =>
      pure ("{ Parsed : ".toList ++ s ++ " }".toList)) = _
  rw [half_shown leftFirst (k + 1) _ true (half_height _)]
  rfl

private theorem half_proper (k : Nat) : Proper (halfObjects k) := by
  induction k with
  | zero => exact .atom .null trivial
  | succ k ih => exact proper_described (by decide) (by decide) (.list _ (by simpa using ih))

private theorem half_wide (k : Nat) : (wide (halfObjects k)).length = 17 * k + 1 := by
  induction k with
  | zero => rfl
  | succ k ih =>
    unfold halfObjects described
    rw [wide_described, wide_symbol, wide_list, wides_cons, ih, wides_nil]
    have : nameFp.length = 2 := rfl
    omega

private theorem schema_proper : Proper twoSchema := by
  have hn : Proper (.mk .null []) := .atom .null trivial
  have hb : ∀ b, Proper (.mk (.bool b) []) := fun _ => .atom (.bool _) trivial
  have ht : ∀ s : Str, ByteText s → s.length < 2 ^ 32 → Proper (str s) := fun s h h' => .atom (.string s) ⟨h, h'⟩
  have he : Proper (strList []) := .list _ (by simp)
  have hf : ∀ s : Str, ByteText s → s.length < 2 ^ 32 → Proper (fieldTree s nameA [] [] [] false false) := by
    intro s h h'
    refine proper_element (by decide) ?_
    have e1 := ht s h h'
    have e2 := ht nameA (by decide) (by decide)
    have e3 := ht [] (by decide) (by decide)
    have e5 := hb false
    intro p hp
    simp only [List.mem_cons, List.not_mem_nil, or_false] at hp
    rcases hp with rfl | rfl | rfl | rfl | rfl | rfl | rfl <;> assumption
  have ha := hf ['a'] (by decide) (by decide)
  have hb := hf ['b'] (by decide) (by decide)
  have ho : Proper (objectTree nameFp) := by
    refine proper_element (by decide) ?_
    have e1 := proper_sym nameFp (by decide) (by decide)
    intro p hp
    simp only [List.mem_cons, List.not_mem_nil, or_false] at hp
    rcases hp with rfl | rfl <;> assumption
  have hl : Proper (.mk .list twoFields) := .list _ (by
    intro p hp
    simp only [twoFields, List.mem_cons, List.not_mem_nil, or_false] at hp
    rcases hp with rfl | rfl <;> assumption)
  have hc : Proper (compositeTree nameA [] [] nameFp twoFields) := by
    refine proper_element (by decide) ?_
    have e2 := ht nameA (by decide) (by decide)
    have e3 := ht [] (by decide) (by decide)
    intro p hp
    simp only [List.mem_cons, List.not_mem_nil, or_false] at hp
    rcases hp with rfl | rfl | rfl | rfl | rfl <;> assumption
  refine proper_element (by decide) ?_
  intro p hp
  simp only [List.mem_cons, List.not_mem_nil, or_false] at hp
  subst hp
  exact .list _ (by simpa using hc)

/-- **C98, the blob inspector, is false in general**: if properties are missing, every further 17 bytes in the file can double the
output. -/
theorem C98_inspector_violated (leftFirst : Bool) (k : Nat) (hk : k < 2 ^ 27) (path : Str) : ∃ file out,
    file.length = 17 * k + 253 ∧ blobInspector leftFirst (holding file) [path] = .exit 0 out ∧ 2 ^ k ≤ out.length := by
  have hp : Proper (halfBlob k) := proper_element (by decide) (by
    intro p hp
    simp only [List.mem_cons, List.not_mem_nil, or_false] at hp
    rcases hp with rfl | rfl | rfl
    · exact half_proper _
    · exact schema_proper
    · exact .atom .null trivial)
  have hw : (wide (halfBlob k)).length = 17 * k + 245 := by
    unfold halfBlob envelopeTree
    rw [wide_element, wides_cons, half_wide, wides_cons, wides_cons, wides_nil, show (wide twoSchema).length = 207 from by decide +kernel,
      show (wide (.mk .null [])).length = 1 from rfl]
    omega
  have hl : (fileOf (halfBlob k)).length = 17 * k + 253 := by rw [fileOf_length, hw]; omega
  refine ⟨fileOf (halfBlob k), _, hl, (C68_blob_inspector leftFirst _ (fits (by omega)) _ _).mpr
    ⟨path, halfBlob k, _, rfl, ?_, by rw [C92_any leftFirst _ _ rfl, half_inspected], rfl⟩, ?_⟩
  · obtain ⟨payload, h1, h2⟩ := fileOf_holds hp (by omega) path
    exact ⟨magic, payload, magic_length, h1, h2⟩
  · have := half_long (k + 1)
    rw [Nat.pow_succ] at this
    simp only [List.length_append]
    omega

/-! The data dumper: maps in maps, with one entry each. -/

def nameM : Str := ['m']

/-- Maps with one entry, the value of which is such a map again. -/
def nestedMaps : Nat → Node
  | 0 => described nameM (.mk .map [])
  | k + 1 => described nameM (.mk .map [described nameM (.mk .map []), nestedMaps k])

def nestedBlob (k : Nat) : Node := element 1 [nestedMaps k]

def emptyMap : Str := "<<<Empty Map>>>".toList

/-- What is shown for them. -/
def nestedText : Nat → Str
  | 0 => colon nameM (brackets [emptyMap])
  | k + 1 => colon nameM (brackets [colon (nestedText k) (nestedText k)])

theorem nested_is (k : Nat) : ∃ m, nestedMaps k = described nameM m ∧ m.val = .map := by
  cases k <;> exact ⟨_, rfl, rfl⟩

theorem nested_shown (k : Nat) : taken (nestedMaps k) .described = .ok (nestedText k) := by
  induction k with
  | zero => decide +kernel
  | succ k ih =>
    obtain ⟨m, hm, -⟩ := nested_is k
    have ht : (nestedMaps k).val.type = .described := by rw [hm]; rfl
    have h1 : slippedTaken [described nameM (.mk .map []), nestedMaps k] (takenParts [described nameM (.mk .map []), nestedMaps k])
        = .ok [colon (nestedText k) (nestedText k)] := by
      unfold slippedTaken
      rw [if_neg (by simp), show List.range (([described nameM (.mk .map []), nestedMaps k].length + 1) / 2) = [0] by
        simp [List.range_succ]]
      show all [taken (nestedMaps k) .described >>= fun a => taken (nestedMaps k) (nestedMaps k).val.type >>= fun b =>
        pure (colon a b)] = _
      rw [ht, ih]
      rfl
    have h2 : taken (.mk .map [described nameM (.mk .map []), nestedMaps k]) .map
        = .ok (brackets [colon (nestedText k) (nestedText k)]) := by
      rw [taken, if_neg (by decide), if_pos rfl, if_pos (show Atom.map.type = PnType.map from rfl), h1]
      rfl
    show taken (.mk .described [.mk (.symbol nameM) [], .mk .map [described nameM (.mk .map []), nestedMaps k]]) .described = _
    rw [taken, if_neg (by decide), if_neg (by decide), if_pos rfl]
    show (colon nameM <$> taken (.mk .map [described nameM (.mk .map []), nestedMaps k]) .map) = _
    rw [h2]
    rfl

theorem nested_long (k : Nat) : 2 ^ k ≤ (nestedText k).length := by
  induction k with
  | zero => decide +kernel
  | succ k ih =>
    have : ∀ a b c d : Str, 2 * (nestedText k).length ≤ (a ++ b ++ (c ++ List.intercalate d [colon (nestedText k) (nestedText k)] ++ d)).length := by
      intro a b c d
      simp only [List.intercalate, List.intersperse, List.flatten_cons, List.flatten_nil, List.append_nil, List.length_append, colon]
      omega
    have h := this nameM " : ".toList "[ ".toList " ]".toList
    rw [Nat.pow_succ]
    show _ ≤ (nameM ++ " : ".toList ++ ("[ ".toList ++ List.intercalate ", ".toList [colon (nestedText k) (nestedText k)] ++ " ]".toList)).length
    have e : List.intercalate ", ".toList [colon (nestedText k) (nestedText k)] = List.intercalate " ]".toList [colon (nestedText k) (nestedText k)] := by
      simp only [List.intercalate, List.intersperse]
    rw [e]
    omega

private theorem nested_proper (k : Nat) : Proper (nestedMaps k) := by
  have h0 : Proper (described nameM (.mk .map [])) := proper_described (by decide) (by decide) (.map _ (by simp) rfl)
  induction k with
  | zero => exact h0
  | succ k ih =>
    refine proper_described (by decide) (by decide) (.map _ ?_ (by simp))
    intro p hp
    simp only [List.mem_cons, List.not_mem_nil, or_false] at hp
    rcases hp with rfl | rfl <;> assumption

private theorem nested_wide (k : Nat) : (wide (nestedMaps k)).length = 32 * k + 16 := by
  have h0 : (wide (described nameM (.mk .map []))).length = 16 := rfl
  induction k with
  | zero => exact h0
  | succ k ih =>
    unfold nestedMaps
    rw [described, wide_described, wide_symbol, wide_map, wides_cons, h0, wides_cons, ih, wides_nil]
    have : nameM.length = 1 := rfl
    omega

/-- **C98, the data dumper, is false in general**: if there are maps with one entry, every further 32 bytes in the file can double
the output, because the value is shown twice. -/
theorem C98_data_violated (k : Nat) (hk : k < 2 ^ 26) (path : Str) : ∃ file out,
    file.length = 32 * k + 43 ∧ dataDumper (holding file) [path] = .exit 0 out ∧ 2 ^ k ≤ out.length := by
  have hp : Proper (nestedBlob k) := proper_element (by decide) (by simpa using nested_proper k)
  have hw : (wide (nestedBlob k)).length = 32 * k + 35 := by
    unfold nestedBlob
    rw [wide_element, wides_cons, nested_wide, wides_nil]
    omega
  have hl : (fileOf (nestedBlob k)).length = 32 * k + 43 := by rw [fileOf_length, hw]; omega
  have hd : dataText (some (nestedBlob k)) = .ok (nestedText k) := by
    obtain ⟨m, hm, -⟩ := nested_is k
    have h1 : firstText [nestedMaps k] = .ok (nestedText k) := by
      unfold firstText
      rw [show describedParts (nth [nestedMaps k] 0) = .ok (nestedMaps k).kids by rw [hm]; rfl]
      exact nested_shown k
    unfold dataText
    rw [if_pos (show typeHere (some (nestedBlob k)) = .described from rfl),
      if_pos (show numberHere (nth (kidsOf (some (nestedBlob k))) 0) % 2 ^ 32 = 1 by
        show cordaId 1 % 2 ^ 32 = 1
        decide)]
    exact h1
  refine ⟨fileOf (nestedBlob k), _, hl, (C68_data_dumper _ (fits (by omega)) _ _).mpr
    ⟨path, nestedBlob k, _, rfl, fileOf_holds hp (by omega) path, by rw [C85_data]; exact hd, rfl⟩, ?_⟩
  have := nested_long k
  rw [List.length_append]
  omega

/-! The schema dumper: envelopes in envelopes, with one part each. -/

def nameX : Str := ['x']

/-- Envelopes in envelopes. -/
def envelopes : Nat → Node
  | 0 => element 1 [described nameX (.mk .list [])]
  | k + 1 => element 1 [envelopes k]

private theorem envelopes_is (k : Nat) : ∃ ps, envelopes k = element 1 [ps] ∧ ps.val = .described := by
  cases k with
  | zero => exact ⟨_, rfl, rfl⟩
  | succ k => cases k <;> exact ⟨_, rfl, rfl⟩

private theorem envelope_lines (depth i : Nat) (p : Node) (hp : p.val = .described) {ls : List Line}
    (h : linesIn depth (i + 3) (some p) = .ok ls) : linesIn (depth + 1) i (some (element 1 [p]))
      = .ok (elementHead i (cordaId 1) 1 ++ ([⟨i + 2, "1]".toList⟩] ++ ls ++ [⟨i + 2, "2]".toList⟩] ++ ls)) := by
  have h1 : elementLines (linesIn depth) (i + 3) (some p) = .ok ls := by
    unfold elementLines valueOf
    rw [Option.map_some, hp]
    exact h
  have h2 : insideShown (linesIn depth) i (cordaId 1) (some (.mk .list [p]))
      = .ok ([⟨i + 2, "1]".toList⟩] ++ ls ++ [⟨i + 2, "2]".toList⟩] ++ ls) := by
    unfold insideShown
    rw [if_pos rfl]
    show (elementLines (linesIn depth) (i + 3) (some p) >>= fun a => elementLines (linesIn depth) (i + 3) (some p) >>= fun b =>
      pure ([⟨i + 2, "1]".toList⟩] ++ a ++ [⟨i + 2, "2]".toList⟩] ++ b)) = _
    rw [h1]
    rfl
  show (insideShown (linesIn depth) i (cordaId 1) (some (.mk .list [p])) >>= fun ls => pure (elementHead i (cordaId 1) 1 ++ ls)) = _
  rw [h2]
  rfl

private theorem envelopes_shown (k : Nat) : ∀ depth i, k + 1 < depth →
    ∃ ls, linesIn depth i (some (envelopes k)) = .ok ls ∧ 2 ^ k ≤ ls.length := by
  induction k with
  | zero =>
    intro depth i h
    obtain ⟨d, rfl⟩ : ∃ d, depth = d + 2 := ⟨depth - 2, by omega⟩
    refine ⟨_, envelope_lines (d + 1) i (described nameX (.mk .list [])) rfl rfl, ?_⟩
    simp only [elementHead, List.length_append, List.length_cons]
    omega
  | succ k ih =>
    intro depth i h
    obtain ⟨d, rfl⟩ : ∃ d, depth = d + 1 := ⟨depth - 1, by omega⟩
    obtain ⟨ls, h1, h2⟩ := ih d (i + 3) (by omega)
    obtain ⟨p, hp, -⟩ := envelopes_is k
    refine ⟨_, envelope_lines d i (envelopes k) (by rw [hp]; rfl) h1, ?_⟩
    simp only [List.length_append, Nat.pow_succ]
    omega

private theorem envelopes_height (k : Nat) : k + 1 < (envelopes k).height := by
  have key : ∀ p : Node, p.height < (element 1 [p]).height := by
    intro p
    have h1 := height_kids (v := .list) (ks := [p]) (k := p) (by simp)
    have h2 := height_kids (v := .described) (ks := [.mk (.ulong (cordaId 1)) [], .mk .list [p]]) (k := .mk .list [p]) (by simp)
    show _ < (Node.mk .described [.mk (.ulong (cordaId 1)) [], .mk .list [p]]).height
    omega
  induction k with
  | zero => decide
  | succ k ih =>
    have := key (envelopes k)
    show _ < (element 1 [envelopes k]).height
    omega

private theorem page_lines (ls : List Line) : ls.length ≤ (page ls).length := by
  unfold page
  induction ls with
  | nil => simp
  | cons l ls ih =>
    simp only [List.flatMap_cons, List.length_append, List.length_cons, Line.show, List.length_nil]
    omega

private theorem envelopes_proper (k : Nat) : Proper (envelopes k) := by
  induction k with
  | zero =>
    refine proper_element (by decide) ?_
    intro p hp
    simp only [List.mem_cons, List.not_mem_nil, or_false] at hp
    subst hp
    exact proper_described (by decide) (by decide) (.list _ (by simp))
  | succ k ih => exact proper_element (by decide) (by simpa using ih)

private theorem envelopes_wide (k : Nat) : (wide (envelopes k)).length = 19 * k + 35 := by
  induction k with
  | zero => rfl
  | succ k ih =>
    unfold envelopes
    rw [wide_element, wides_cons, ih, wides_nil]
    omega

/-- **C98, the schema dumper with `raw`, is false in general**: if there are envelopes with one part, every further 19 bytes in the
file can double the output, because the part is shown as the payload and as the schema. -/
theorem C98_raw_violated (k : Nat) (hk : k < 2 ^ 26) (path : Str) : ∃ file out,
    file.length = 19 * k + 43 ∧ schemaDumper (holding file) [path, "raw".toList] = .exit 0 out ∧ 2 ^ k ≤ out.length := by
  have hw := envelopes_wide k
  have hl : (fileOf (envelopes k)).length = 19 * k + 43 := by rw [fileOf_length, hw]; omega
  obtain ⟨ls, h1, h2⟩ := envelopes_shown k _ 0 (envelopes_height k)
  have hd : rawDump (envelopes k) = .ok (page ls) := by
    obtain ⟨p, hp, -⟩ := envelopes_is k
    unfold rawDump
    rw [show (envelopes k).val = .described by rw [hp]; rfl]
    show (linesIn (envelopes k).height 0 (some (envelopes k)) >>= fun ls => pure (page ls)) = _
    rw [h1]
    rfl
  refine ⟨fileOf (envelopes k), _, hl, (C68_schema_dumper _ (fits (by omega)) _ _).mpr
    ⟨path, "raw".toList, .raw, envelopes k, _, rfl, .inr ⟨rfl, rfl⟩, fileOf_holds (envelopes_proper k) (by omega) path,
      by rw [C90_any _ _ rfl]; exact hd, rfl⟩, ?_⟩
  have := page_lines ls
  rw [List.length_append]
  omega

/-! ### Examples -/

/-- A file of 1341 bytes for which the blob inspector, and one of 2091 bytes for which the data dumper, and one of 1259 bytes for
which the schema dumper would have to print more than 10^19 characters. -/
example : (∃ file out, file.length = 1341 ∧ blobInspector true (holding file) ["f".toList] = .exit 0 out ∧ 10 ^ 19 < out.length)
    ∧ (∃ file out, file.length = 2091 ∧ dataDumper (holding file) ["f".toList] = .exit 0 out ∧ 10 ^ 19 < out.length)
    ∧ ∃ file out, file.length = 1259 ∧ schemaDumper (holding file) ["f".toList, "raw".toList] = .exit 0 out
      ∧ 10 ^ 19 < out.length := by
  obtain ⟨f1, o1, a1, b1, c1⟩ := C98_inspector_violated true 64 (by decide) "f".toList
  obtain ⟨f2, o2, a2, b2, c2⟩ := C98_data_violated 64 (by decide) "f".toList
  obtain ⟨f3, o3, a3, b3, c3⟩ := C98_raw_violated 64 (by decide) "f".toList
  exact ⟨⟨f1, o1, a1, b1, by omega⟩, ⟨f2, o2, a2, b2, by omega⟩, ⟨f3, o3, a3, b3, by omega⟩⟩

/-- An object of that class in which nothing is missing, three deep, and its text. -/
example : inspectionOf true (envelopeTree (described nameFp (.mk .list [described nameFp (.mk .list [.mk .null [], .mk .null []]),
      .mk .null []])) twoSchema (.mk .null []))
    = .ok "{ Parsed : { a : { a : <<NULL>>, b : <<NULL>> }, b : <<NULL>> } }".toList := by decide +kernel

/-- The same with the last property missing everywhere. -/
example : inspectionOf true (halfBlob 1)
    = .ok "{ Parsed : { a : { a : <<NULL>>, b : <<NULL>> }, b : { a : <<NULL>>, b : <<NULL>> } } }".toList := by decide +kernel

/-- A map with one entry: the value comes twice, the key not at all. -/
example : taken (nestedMaps 1) .described = .ok "m : [ m : [ <<<Empty Map>>> ] : m : [ <<<Empty Map>>> ] ]".toList := by decide +kernel

#print axioms C98_decoded
#print axioms C98_inspector_partial
#print axioms C98_inspector_violated
#print axioms C98_data_partial
#print axioms C98_data_violated
#print axioms C98_raw_partial
#print axioms C98_raw_violated
#print axioms C98_avro

end Corda.Props
