import Verif.Props.Processes

/-
C110: files that were cut off, or to which something was added.
-/

namespace Corda.Props
open Corda Corda.Spec Corda.Programs

/-- What is decoded completely is not decoded completely with more behind it. -/
private theorem decode_more {b : List Byte} {n : Node} (h : Wire.decode b = some (b.length, n)) (x : List Byte) :
    Wire.decode (b ++ x) = some (b.length, n) := by
  cases b with
  | nil => cases h
  | cons c r =>
    simp only [Wire.decode, Option.map_eq_some_iff, Prod.mk.injEq, List.cons_append] at h ⊢
    obtain ⟨⟨m, rest⟩, hb, h1, rfl⟩ := h
    refine ⟨(m, rest ++ x), Wire.body_more x (by simp) hb, ?_, rfl⟩
    simp only [List.length_cons, List.length_append] at h1 ⊢
    omega

private theorem decode_cut {b x : List Byte} {n : Node} (h : Wire.decode (b ++ x) = some ((b ++ x).length, n)) (hx : x ≠ []) : Wire.decode b = none := by
  cases hb : Wire.decode b with
  | none => rfl
  | some p =>
    exfalso
    cases b with
    | nil => cases hb
    | cons c r =>
      simp only [Wire.decode, Option.map_eq_some_iff] at hb
      obtain ⟨⟨m, rest⟩, hb, -⟩ := hb
      have := Wire.body_more x (show (c :: r).length ≤ ((c :: r) ++ x).length by simp) hb
      simp only [Wire.decode, List.cons_append, Option.map_eq_some_iff, Prod.mk.injEq] at h
      obtain ⟨y, h1, h2, -⟩ := h
      simp only [List.cons_append] at this
      rw [this] at h1
      cases h1
      have : 0 < x.length := by cases x <;> simp_all
      simp only [List.length_cons, List.length_append] at h2
      omega

private theorem fits {b : List Byte} (h : b.length < 2 ^ 63) : FilesFit (holding b) := by
  intro p c hc
  cases hc
  exact h

private theorem heads {h1 h2 p1 p2 x : List Byte} {e1 e2 : Byte} (l1 : h1.length = 7) (l2 : h2.length = 7)
    (e : h1 ++ e1 :: p1 ++ x = h2 ++ e2 :: p2) : p2 = p1 ++ x := by
  rw [List.append_assoc] at e
  have := List.append_inj_right e (l1.trans l2.symm)
  simp only [List.cons_append, List.cons.injEq] at this
  exact this.2.symm

private theorem not_both {p x : List Byte} {n m : Node} (hx : x ≠ []) (h : Wire.decode p = some (p.length, n))
    (h' : Wire.decode (p ++ x) = some ((p ++ x).length, m)) : False := by
  rw [decode_cut h' hx] at h
  cases h

/-- **C110, data dumper**: of a file and a longer one that begins with it, at most one is shown.  So no file that was cut off is, and none to
which something was added. -/
theorem C110_data_dumper (b x : List Byte) (hx : x ≠ []) (hl : (b ++ x).length < 2 ^ 63) (args args' : List Str) (out out' : Str)
    (h : dataDumper (holding b) args = .exit 0 out) : dataDumper (holding (b ++ x)) args' ≠ .exit 0 out' := by
  intro h'
  obtain ⟨_, n, _, _, ⟨p, hf, hd⟩, -⟩ := (C68_data_dumper _ (fits (by rw [List.length_append] at hl; omega)) _ _).1 h
  obtain ⟨_, n', _, _, ⟨p', hf', hd'⟩, -⟩ := (C68_data_dumper _ (fits hl) _ _).1 h'
  cases hf
  have := heads magic_length magic_length (Option.some.inj hf')
  subst this
  exact not_both hx hd hd'

/-- **C110, schema dumper.** -/
theorem C110_schema_dumper (b x : List Byte) (hx : x ≠ []) (hl : (b ++ x).length < 2 ^ 63) (args args' : List Str) (out out' : Str)
    (h : schemaDumper (holding b) args = .exit 0 out) : schemaDumper (holding (b ++ x)) args' ≠ .exit 0 out' := by
  intro h'
  obtain ⟨_, _, _, n, _, _, _, ⟨p, hf, hd⟩, -⟩ := (C68_schema_dumper _ (fits (by rw [List.length_append] at hl; omega)) _ _).1 h
  obtain ⟨_, _, _, n', _, _, _, ⟨p', hf', hd'⟩, -⟩ := (C68_schema_dumper _ (fits hl) _ _).1 h'
  cases hf
  have := heads magic_length magic_length (Option.some.inj hf')
  subst this
  exact not_both hx hd hd'

/-- **C110, blob inspector.** -/
theorem C110_blob_inspector (b x : List Byte) (hx : x ≠ []) (hl : (b ++ x).length < 2 ^ 63) (args args' : List Str) (out out' : Str)
    (leftFirst leftFirst' : Bool) (h : blobInspector leftFirst (holding b) args = .exit 0 out) :
    blobInspector leftFirst' (holding (b ++ x)) args' ≠ .exit 0 out' := by
  intro h'
  obtain ⟨_, n, _, _, ⟨hdr, p, l, hf, hd⟩, -⟩ := (C68_blob_inspector _ _ (fits (by rw [List.length_append] at hl; omega)) _ _).1 h
  obtain ⟨_, n', _, _, ⟨hdr', p', l', hf', hd'⟩, -⟩ := (C68_blob_inspector _ _ (fits hl) _ _).1 h'
  cases hf
  have := heads l l' (Option.some.inj hf')
  subst this
  exact not_both hx hd hd'

/-- **C110, reader-test-01.** -/
theorem C110_reader01 (b x : List Byte) (hx : x ≠ []) (hl : (b ++ x).length < 2 ^ 63) (args args' : List Str) (text text' : Str)
    (r r' : ReadCompiled) (f f' : ProgFiles) (h : (readerTest01 r f (holding b) args).ended = .exit 0 text) :
    (readerTest01 r' f' (holding (b ++ x)) args').ended ≠ .exit 0 text' := by
  intro h'
  obtain ⟨_, n, _, _, _, ⟨e, p, -, hf, hd⟩, -⟩ := (C104_shows r f _ (fits (by rw [List.length_append] at hl; omega)) _ _).1 h
  obtain ⟨_, n', _, _, _, ⟨e', p', -, hf', hd'⟩, -⟩ := (C104_shows r' f' _ (fits hl) _ _).1 h'
  cases hf
  have := heads magic_length magic_length (Option.some.inj hf')
  subst this
  exact not_both hx hd hd'

private theorem load_dump {cfg : AMQPConfig} (hc : ValidConfig cfg) {hdr p : List Byte} (hl : hdr.length = 7) (hi : cfg.ignoreHeader = true ∨ hdr = magic)
    (hs : (hdr ++ 0 :: p).length < 2 ^ 63) (hd : ∀ n, Wire.decode p ≠ some (p.length, n)) (path : Str) (dump : Cursor → Res Str) :
    loadAndDump cfg (holding (hdr ++ 0 :: p)) path dump = .ub "assert" := by
  unfold loadAndDump
  rw [show (holding (hdr ++ 0 :: p)).file path = some (hdr ++ 0 :: p) from rfl, load_eq cfg hc hdr hl 0 p hs, if_pos hi, if_pos (by decide)]
  simp only [Res.bind_eq, Res.bind, if_true]
  have : AMQPBlob.make (holding (hdr ++ 0 :: p)) { encoding := 0, size := p.length, blob := p } = .ub "assert" := by
    unfold AMQPBlob.make
    show (match Wire.decode p with | some (used, n) => if used = p.length then Res.ok (Cursor.root n) else .ub "assert" | none => .ub "assert") = _
    cases h : Wire.decode p with
    | none => rfl
    | some x =>
      obtain ⟨u, n⟩ := x
      simp only
      rw [if_neg (fun hu => hd n (by rw [h, hu]))]
  rw [this]

/-- **C110, how they end** if what is behind the first eight bytes is not one complete value: the assertion on how many bytes were decoded
(AMQPBlob.cxx:38) is all that notices. -/
theorem C110_assertion (hdr p : List Byte) (hl : hdr.length = 7) (hs : p.length < 2 ^ 62) (hd : ∀ n, Wire.decode p ≠ some (p.length, n)) (path : Str) :
    (∀ leftFirst, blobInspector leftFirst (holding (hdr ++ 0 :: p)) [path] = .ub "assert")
      ∧ (hdr = magic → dataDumper (holding (hdr ++ 0 :: p)) [path] = .ub "assert"
        ∧ ∀ mode, mode = "avro".toList ∨ mode = "raw".toList → schemaDumper (holding (hdr ++ 0 :: p)) [path, mode] = .ub "assert") := by
  have hs' : (hdr ++ 0 :: p).length < 2 ^ 63 := by simp only [List.length_append, List.length_cons]; omega
  refine ⟨fun leftFirst => ?_, fun hm => ⟨?_, fun mode hmode => ?_⟩⟩
  · show uncaught (loadAndDump { ignoreHeader := true } _ path _) = _
    rw [load_dump (.inr rfl) hl (.inl rfl) hs' hd]
    rfl
  · show catchRuntime (loadAndDump {} _ path _) = _
    rw [load_dump (.inr rfl) hl (.inr hm) hs' hd]
    rfl
  · unfold schemaDumper
    simp only [show (holding (hdr ++ 0 :: p)).file path = some (hdr ++ 0 :: p) from rfl]
    rcases hmode with rfl | rfl
    · rw [if_pos rfl, load_dump (.inr rfl) hl (.inr hm) hs' hd]
      rfl
    · rw [if_neg (by decide), if_pos rfl, load_dump (.inr rfl) hl (.inr hm) hs' hd]
      rfl

/-- **C110, every cut and every addition** behind the first eight bytes of a file a tool shows is of that kind. -/
theorem C110_damaged (p x : List Byte) (hx : x ≠ []) :
    (∀ n, Wire.decode p = some (p.length, n) → ∀ m, Wire.decode (p ++ x) ≠ some ((p ++ x).length, m))
      ∧ (∀ n, Wire.decode (p ++ x) = some ((p ++ x).length, n) → ∀ m, Wire.decode p ≠ some (p.length, m)) :=
  ⟨fun n h m h' => not_both hx h h', fun n h m h' => not_both hx h' h⟩

/-- **C110, objects the programs save**: cut anywhere, or continued, a saved object is shown by none of the programs; in whatever encoding. -/
theorem C110_saved (o : Obj) (n : Node) (hs : serialise o = .ok [n]) (bytes : List Byte) (he : Encodes bytes n) (hl : bytes.length < 2 ^ 62)
    (damaged : List Byte) (hd : (∃ k, k < (CordaBytes.ofBlob bytes).toFile.length ∧ damaged = (CordaBytes.ofBlob bytes).toFile.take k)
      ∨ ∃ x, x ≠ [] ∧ x.length < 2 ^ 61 ∧ damaged = (CordaBytes.ofBlob bytes).toFile ++ x) (args : List Str) (out : Str) :
    (∀ leftFirst, blobInspector leftFirst (holding damaged) args ≠ .exit 0 out) ∧ dataDumper (holding damaged) args ≠ .exit 0 out
      ∧ schemaDumper (holding damaged) args ≠ .exit 0 out ∧ ∀ r f, (readerTest01 r f (holding damaged) args).ended ≠ .exit 0 out := by
  have hf : (CordaBytes.ofBlob bytes).toFile = magic ++ 0 :: bytes := by
    have : (AMQP_HEADERS[1]'(by decide)).take 7 = magic := by decide
    simp [CordaBytes.toFile, CordaBytes.ofBlob, this]
  have hb : Wire.decode bytes = some (bytes.length, n) := by have := C71_decoded he []; rwa [List.append_nil] at this
  rw [hf] at hd
  have hlen : (magic ++ 0 :: bytes).length = 8 + bytes.length := by simp [magic_length]; omega
  have key : ∀ (hdr p : List Byte) (e : Byte), hdr.length = 7 → damaged = hdr ++ e :: p → ∀ m, Wire.decode p ≠ some (p.length, m) := by
    intro hdr p e h7 hdm m
    rcases hd with ⟨k, hk, rfl⟩ | ⟨x, hx, -, rfl⟩
    · have h1 : hdr ++ e :: p ++ (magic ++ 0 :: bytes).drop k = magic ++ 0 :: bytes := by rw [← hdm, List.take_append_drop]
      have h2 := heads h7 magic_length h1
      have h3 : (magic ++ 0 :: bytes).drop k ≠ [] := by
        intro h
        have := congrArg List.length h
        simp only [List.length_drop, List.length_nil] at this
        omega
      exact (C110_damaged p _ h3).2 n (by rw [← h2]; exact hb) m
    · have h2 := heads magic_length h7 hdm
      rw [h2]
      exact (C110_damaged bytes x hx).1 n hb m
  have hfit : FilesFit (holding damaged) := by
    refine fits ?_
    rcases hd with ⟨k, hk, rfl⟩ | ⟨x, -, hx, rfl⟩
    · rw [List.length_take]; omega
    · rw [List.length_append]; omega
  refine ⟨fun lf h => ?_, fun h => ?_, fun h => ?_, fun r f h => ?_⟩
  · obtain ⟨_, m, _, _, ⟨hdr, p, l, hf, hd⟩, -⟩ := (C68_blob_inspector _ _ hfit _ _).1 h
    exact key hdr p 0 l (Option.some.inj hf) m hd
  · obtain ⟨_, m, _, _, ⟨p, hf, hd⟩, -⟩ := (C68_data_dumper _ hfit _ _).1 h
    exact key magic p 0 magic_length (Option.some.inj hf) m hd
  · obtain ⟨_, _, _, m, _, _, _, ⟨p, hf, hd⟩, -⟩ := (C68_schema_dumper _ hfit _ _).1 h
    exact key magic p 0 magic_length (Option.some.inj hf) m hd
  · obtain ⟨_, m, _, _, _, ⟨e, p, -, hf, hd⟩, -⟩ := (C104_shows r f _ hfit _ _).1 h
    exact key magic p e magic_length (Option.some.inj hf) m hd

/-! ### Examples -/

/-- A list of two numbers; without its last byte; with another byte. -/
example : Wire.decode [0xc0, 5, 2, 0x54, 1, 0x54, 2] = some (7, .mk .list [.mk (.int 1) [], .mk (.int 2) []])
    ∧ Wire.decode [0xc0, 5, 2, 0x54, 1, 0x54] = none
    ∧ Wire.decode [0xc0, 5, 2, 0x54, 1, 0x54, 2, 3] = some (7, .mk .list [.mk (.int 1) [], .mk (.int 2) []]) := by decide +kernel

/-- The file without bytes behind the preamble. -/
example (path : Str) : dataDumper (holding (magic ++ [0])) [path] = .ub "assert" :=
  ((C110_assertion magic [] magic_length (by decide) (fun n h => by cases h) path).2 rfl).1

#print axioms C110_data_dumper
#print axioms C110_schema_dumper
#print axioms C110_blob_inspector
#print axioms C110_reader01
#print axioms C110_assertion
#print axioms C110_damaged
#print axioms C110_saved

end Corda.Props
