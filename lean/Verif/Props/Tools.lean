import Verif.Lemmas.Quiet
import Verif.Props.CordaBytes
import Verif.Props.Shown
import Verif.Props.SchemaDumpSafe

/-
C68-C70: the command line tools.
-/

namespace Corda.Props
open Corda Corda.Prog Corda.Spec

/-! ### Loading -/

theorem default_valid : ValidConfig {} := .inr rfl
theorem ignoring_valid : ValidConfig { ignoreHeader := true } := .inr rfl

/-- Files have fewer than 2^63 bytes. -/
def FilesFit (sys : System) : Prop := ∀ p b, sys.file p = some b → b.length < 2 ^ 63

private theorem split_file {b : List Byte} (h : 8 ≤ b.length) : ∃ hdr e rest, b = hdr ++ e :: rest ∧ hdr.length = 7 := by
  refine ⟨b.take 7, b[7]'(by omega), b.drop 8, ?_, by simp; omega⟩
  have h1 : b.take 7 ++ b.drop 7 = b := List.take_append_drop 7 b
  rw [List.drop_eq_getElem_cons (by omega : 7 < b.length)] at h1
  exact h1.symm

private theorem app_inj {a b : List Byte} {x y : Byte} {c d : List Byte} (h : a ++ x :: c = b ++ y :: d) (hl : a.length = b.length) :
    a = b ∧ x = y ∧ c = d := by
  obtain ⟨h1, h2⟩ := List.append_inj h hl
  simp only [List.cons.injEq] at h2
  exact ⟨h1, h2.1, h2.2⟩

theorem load_short_not_ok {cfg : AMQPConfig} (hc : ValidConfig cfg) {b : List Byte} (h : b.length < 8) (x : CordaBytes) :
    CordaBytes.load cfg (some b) ≠ .ok x := by
  have hd : b.drop 7 = [] := List.drop_eq_nil_of_le (by omega)
  have hh : AMQP_HEADERS[cfg.header]? = some magic := by rcases hc with h | h <;> rw [h] <;> decide
  unfold CordaBytes.load
  simp only [hh, readInto, hd]
  split <;> simp

/-- What the tools do with a file. -/
theorem loadAndDump_file {cfg : AMQPConfig} (hc : ValidConfig cfg) {sys : System} {path : Str} {hdr : List Byte} {e : Byte}
    {rest : List Byte} (hl : hdr.length = 7) (hf : sys.file path = some (hdr ++ e :: rest))
    (hs : (hdr ++ e :: rest).length < 2 ^ 63) (dump : Cursor → Res Str) :
    loadAndDump cfg sys path dump =
      if cfg.ignoreHeader = true ∨ hdr = magic then
        if e.toNat ≤ 2 then
          if e = 0 then
            match sys.decode rest with
            | some (used, n) =>
              if used = rest.length then (dump (Cursor.root n)).bind fun s => .ok (.exit 0 (s ++ ['\n'])) else .ub "assert"
            | none => .ub "assert"
          else .ok (.exit 1 [])
        else if e.toNat ≤ 3 then .throw "Unknown encoding encountered"
        else .ub "enumeration value out of range"
      else .throw "Not a Corda stream" := by
  unfold loadAndDump
  rw [hf, load_eq cfg hc hdr hl e rest hs]
  by_cases h1 : cfg.ignoreHeader = true ∨ hdr = magic
  · rw [if_pos h1, if_pos h1]
    by_cases h2 : e.toNat ≤ 2
    · rw [if_pos h2, if_pos h2]
      simp only [Res.bind_eq, Res.bind]
      by_cases h3 : e = 0
      · rw [if_pos h3, if_pos h3]
        unfold AMQPBlob.make
        simp only
        cases sys.decode rest with
        | none => rfl
        | some x =>
          obtain ⟨u, n⟩ := x
          simp only
          by_cases h4 : u = rest.length
          · rw [if_pos h4, if_pos h4]
            rfl
          · rw [if_neg h4, if_neg h4]
      · rw [if_neg h3, if_neg h3]
        rfl
    · rw [if_neg h2, if_neg h2]
      split <;> rfl
  · rw [if_neg h1, if_neg h1]
    rfl

private theorem loadAndDump_zero {cfg : AMQPConfig} (hc : ValidConfig cfg) {sys : System} (hs : FilesFit sys) (path : Str)
    (dump : Cursor → Res Str) (out : Str) :
    loadAndDump cfg sys path dump = .ok (.exit 0 out) ↔ ∃ hdr payload n s, hdr.length = 7 ∧ (cfg.ignoreHeader = true ∨ hdr = magic)
      ∧ sys.file path = some (hdr ++ 0 :: payload) ∧ sys.decode payload = some (payload.length, n)
      ∧ dump (Cursor.root n) = .ok s ∧ out = s ++ ['\n'] := by
  constructor
  · intro h
    cases hf : sys.file path with
    | none =>
      unfold loadAndDump at h
      rw [hf] at h
      simp [CordaBytes.load, Res.bind_eq, Res.bind] at h
    | some b =>
      by_cases h8 : 8 ≤ b.length
      · obtain ⟨hdr, e, rest, rfl, hl⟩ := split_file h8
        rw [loadAndDump_file hc hl hf (hs _ _ hf)] at h
        split at h
        · rename_i h1
          split at h
          · split at h
            · rename_i h3
              subst h3
              split at h
              · rename_i u n hd
                split at h
                · rename_i hu
                  subst hu
                  cases hx : dump (Cursor.root n) with
                  | ok s =>
                    rw [hx] at h
                    simp only [Res.bind, Res.ok.injEq, Ended.exit.injEq, true_and] at h
                    exact ⟨hdr, rest, n, s, hl, h1, rfl, hd, hx, h.symm⟩
                  | throw m => rw [hx] at h; cases h
                  | ub m => rw [hx] at h; cases h
                · cases h
              · cases h
            · simp at h
          · split at h <;> cases h
        · cases h
      · unfold loadAndDump at h
        rw [hf] at h
        have hno := load_short_not_ok hc (b := b) (by omega)
        cases hx : CordaBytes.load cfg (some b) with
        | ok x => exact absurd hx (hno x)
        | throw m => rw [hx] at h; cases h
        | ub m => rw [hx] at h; cases h
  · rintro ⟨hdr, payload, n, s, hl, h1, hf, hd, hx, rfl⟩
    rw [loadAndDump_file hc hl hf (hs _ _ hf), if_pos h1, if_pos (by decide), if_pos rfl, hd]
    simp only [if_true, hx, Res.bind]

/-- What comes back is one of the two exits. -/
private theorem loadAndDump_exit {cfg : AMQPConfig} {sys : System} {path : Str} {dump : Cursor → Res Str} {e : Ended}
    (h : loadAndDump cfg sys path dump = .ok e) : e = .exit 1 [] ∨ ∃ s, e = .exit 0 (s ++ ['\n']) := by
  unfold loadAndDump at h
  rw [Res.bind_eq, Res.bind_eq_ok] at h
  obtain ⟨cb, -, h⟩ := h
  split at h
  · rw [Res.bind_eq, Res.bind_eq_ok] at h
    obtain ⟨c, -, h⟩ := h
    rw [Res.bind_eq, Res.bind_eq_ok] at h
    obtain ⟨s, -, h⟩ := h
    exact .inr ⟨s, by cases h; rfl⟩
  · exact .inl (by cases h; rfl)

private theorem catch_zero {r : Res Ended} {out : Str} : catchRuntime r = .exit 0 out ↔ r = .ok (.exit 0 out) := by
  cases r with
  | ok e => simp [catchRuntime]
  | throw m => simp only [catchRuntime]; split <;> simp [exitFailure]
  | ub w => simp [catchRuntime]

private theorem uncaught_zero {r : Res Ended} {out : Str} : uncaught r = .exit 0 out ↔ r = .ok (.exit 0 out) := by
  cases r <;> simp [uncaught]

/-! ### C68: what is printed

`out` is what `main` writes; the trace of the library comes before it on the same stream (Props/Printed.lean has it for the data dumper,
Props/SchemaPrinted.lean for the schema dumper). -/

/-- A file holding a blob: the seven magic bytes, the byte 0, and bytes that decode completely to this tree. -/
def HoldsBlob (sys : System) (path : Str) (n : Node) : Prop :=
  ∃ payload, sys.file path = some (magic ++ 0 :: payload) ∧ sys.decode payload = some (payload.length, n)

/-- The same with any seven bytes in front. -/
def HoldsBlobAnyHeader (sys : System) (path : Str) (n : Node) : Prop :=
  ∃ hdr payload, hdr.length = 7 ∧ sys.file path = some (hdr ++ 0 :: payload) ∧ sys.decode payload = some (payload.length, n)

theorem magic_length : magic.length = 7 := by decide

/-- **C68, data dumper**: it succeeds with this output exactly if it is given one argument, which names a file holding a blob, and the
output is the dump of the data and a line end. -/
theorem C68_data_dumper (sys : System) (hs : FilesFit sys) (args : List Str) (out : Str) :
    dataDumper sys args = .exit 0 out ↔
      ∃ path n s, args = [path] ∧ HoldsBlob sys path n ∧ (dumpData (Cursor.root n)).1 = .ok s ∧ out = s ++ ['\n'] := by
  constructor
  · intro h
    unfold dataDumper at h
    split at h
    · rename_i path
      split at h
      · simp [exitFailure] at h
      · rw [catch_zero, loadAndDump_zero default_valid hs] at h
        obtain ⟨hdr, payload, n, s, -, hh, hf, hd, hx, ho⟩ := h
        simp only [Bool.false_eq_true, false_or] at hh
        subst hh
        exact ⟨path, n, s, rfl, ⟨payload, hf, hd⟩, hx, ho⟩
    · simp [exitFailure] at h
  · rintro ⟨path, n, s, rfl, ⟨payload, hf, hd⟩, hx, rfl⟩
    unfold dataDumper
    simp only [hf]
    rw [catch_zero, loadAndDump_zero default_valid hs]
    exact ⟨magic, payload, n, s, magic_length, .inr rfl, hf, hd, hx, rfl⟩

/-- The form a mode names. -/
def modeOf (flag : Str) (t : DumpTarget) : Prop :=
  (flag = "avro".toList ∧ t = .avro) ∨ (flag = "raw".toList ∧ t = .raw)

/-- **C68, schema dumper**: it succeeds with this output exactly if it is given a file holding a blob and the mode `avro` or `raw`, and
the output is the dump of the schema in that form and a line end. -/
theorem C68_schema_dumper (sys : System) (hs : FilesFit sys) (args : List Str) (out : Str) :
    schemaDumper sys args = .exit 0 out ↔
      ∃ path flag t n s, args = [path, flag] ∧ modeOf flag t ∧ HoldsBlob sys path n
        ∧ (dumpSchema t (Cursor.root n)).1 = .ok s ∧ out = s ++ ['\n'] := by
  constructor
  · intro h
    unfold schemaDumper at h
    split at h
    · rename_i path flag
      split at h
      · simp [exitFailure] at h
      · split at h
        · rename_i hm
          rw [catch_zero, loadAndDump_zero default_valid hs] at h
          obtain ⟨hdr, payload, n, s, -, hh, hf, hd, hx, ho⟩ := h
          simp only [Bool.false_eq_true, false_or] at hh
          subst hh
          exact ⟨path, flag, .avro, n, s, rfl, .inl ⟨hm, rfl⟩, ⟨payload, hf, hd⟩, hx, ho⟩
        · split at h
          · rename_i hm
            rw [catch_zero, loadAndDump_zero default_valid hs] at h
            obtain ⟨hdr, payload, n, s, -, hh, hf, hd, hx, ho⟩ := h
            simp only [Bool.false_eq_true, false_or] at hh
            subst hh
            exact ⟨path, flag, .raw, n, s, rfl, .inr ⟨hm, rfl⟩, ⟨payload, hf, hd⟩, hx, ho⟩
          · simp [exitFailure] at h
    · simp [exitFailure] at h
  · rintro ⟨path, flag, t, n, s, rfl, hm, ⟨payload, hf, hd⟩, hx, rfl⟩
    unfold schemaDumper
    simp only [hf]
    rcases hm with ⟨rfl, rfl⟩ | ⟨rfl, rfl⟩
    · rw [if_pos rfl, catch_zero, loadAndDump_zero default_valid hs]
      exact ⟨magic, payload, n, s, magic_length, .inr rfl, hf, hd, hx, rfl⟩
    · rw [if_neg (by decide), if_pos rfl, catch_zero, loadAndDump_zero default_valid hs]
      exact ⟨magic, payload, n, s, magic_length, .inr rfl, hf, hd, hx, rfl⟩

/-- **C68, blob inspector**: it succeeds with this output exactly if it is given one argument, which names a file holding a blob behind
any seven bytes, and the output is what inspecting the blob shows and a line end. -/
theorem C68_blob_inspector (leftFirst : Bool) (sys : System) (hs : FilesFit sys) (args : List Str) (out : Str) :
    blobInspector leftFirst sys args = .exit 0 out ↔
      ∃ path n s, args = [path] ∧ HoldsBlobAnyHeader sys path n ∧ (inspect leftFirst (Cursor.root n)).1 = .ok s
        ∧ out = s ++ ['\n'] := by
  constructor
  · intro h
    unfold blobInspector at h
    split at h
    · rename_i path
      split at h
      · simp [exitFailure] at h
      · rw [uncaught_zero, loadAndDump_zero ignoring_valid hs] at h
        obtain ⟨hdr, payload, n, s, hl, -, hf, hd, hx, ho⟩ := h
        exact ⟨path, n, s, rfl, ⟨hdr, payload, hl, hf, hd⟩, hx, ho⟩
    · simp [exitFailure] at h
  · rintro ⟨path, n, s, rfl, ⟨hdr, payload, hl, hf, hd⟩, hx, rfl⟩
    unfold blobInspector
    simp only [hf]
    rw [uncaught_zero, loadAndDump_zero ignoring_valid hs]
    exact ⟨hdr, payload, n, s, hl, .inl rfl, hf, hd, hx, rfl⟩

private theorem catch_silent {cfg : AMQPConfig} {sys : System} {path : Str} {dump : Cursor → Res Str} {code : Nat} {out : Str}
    (h : catchRuntime (loadAndDump cfg sys path dump) = .exit code out) : code = 0 ∨ code = 1 ∧ out = [] := by
  cases hr : loadAndDump cfg sys path dump with
  | ok e =>
    rw [hr] at h
    simp only [catchRuntime] at h
    subst h
    rcases loadAndDump_exit hr with h | ⟨s, h⟩ <;> simp only [Ended.exit.injEq] at h
    · exact .inr h
    · exact .inl h.1
  | throw m =>
    rw [hr] at h
    simp only [catchRuntime] at h
    split at h
    · simp only [Ended.exit.injEq, exitFailure] at h
      exact .inr ⟨h.1.symm, h.2.symm⟩
    · cases h
  | ub m => rw [hr] at h; cases h

private theorem uncaught_silent {cfg : AMQPConfig} {sys : System} {path : Str} {dump : Cursor → Res Str} {code : Nat} {out : Str}
    (h : uncaught (loadAndDump cfg sys path dump) = .exit code out) : code = 0 ∨ code = 1 ∧ out = [] := by
  cases hr : loadAndDump cfg sys path dump with
  | ok e =>
    rw [hr] at h
    simp only [uncaught] at h
    subst h
    rcases loadAndDump_exit hr with h | ⟨s, h⟩ <;> simp only [Ended.exit.injEq] at h
    · exact .inr h
    · exact .inl h.1
  | throw m => rw [hr] at h; cases h
  | ub m => rw [hr] at h; cases h

private theorem failure_silent {code : Nat} {out : Str} (h : Ended.exit exitFailure [] = .exit code out) : code = 0 ∨ code = 1 ∧ out = [] := by
  simp only [Ended.exit.injEq, exitFailure] at h
  exact .inr ⟨h.1.symm, h.2.symm⟩

/-- **C68, on failure**: a tool that returns another status returns 1 and its `main` has written nothing to standard output. -/
theorem C68_silent_failure (leftFirst : Bool) (sys : System) (args : List Str) (code : Nat) (out : Str)
    (h : dataDumper sys args = .exit code out ∨ schemaDumper sys args = .exit code out
      ∨ blobInspector leftFirst sys args = .exit code out) : code = 0 ∨ code = 1 ∧ out = [] := by
  rcases h with h | h | h
  · unfold dataDumper at h
    split at h
    · split at h
      · exact failure_silent h
      · exact catch_silent h
    · exact failure_silent h
  · unfold schemaDumper at h
    split at h
    · split at h
      · exact failure_silent h
      · split at h
        · exact catch_silent h
        · split at h
          · exact catch_silent h
          · exact failure_silent h
    · exact failure_silent h
  · unfold blobInspector at h
    split at h
    · split at h
      · exact failure_silent h
      · exact uncaught_silent h
    · exact failure_silent h

/-! ### C69: ending in an orderly way -/

/-- The process returned a status. -/
def Orderly (e : Ended) : Prop := ∃ code out, e = .exit code out

instance (e : Ended) : Decidable (Orderly e) := match e with
  | .exit c o => isTrue ⟨c, o, rfl⟩
  | .terminated => isFalse (by rintro ⟨_, _, h⟩; cases h)
  | .ub _ => isFalse (by rintro ⟨_, _, h⟩; cases h)

/-- The files a dumper that checks headers copes with: not the bare header, not the header without its last byte, nothing above 3
right behind the header, and if the payload is plain then it decodes completely to a tree on which the dump is defined. -/
def Copes (sys : System) (b : List Byte) (dump : Cursor → Res Str) : Prop :=
  b ≠ magic ∧ b ≠ magic.take 6 ∧ (∀ e payload, b = magic ++ e :: payload → e.toNat ≤ 3) ∧
    ∀ payload, b = magic ++ 0 :: payload → ∃ n, sys.decode payload = some (payload.length, n) ∧ (dump (Cursor.root n)).Defined

private theorem orderly_iff {r : Res Ended} (ho : ∀ e, r = .ok e → Orderly e) (hq : r.Quiet) : Orderly (catchRuntime r) ↔ r.Defined := by
  cases r with
  | ok e => exact ⟨fun _ => trivial, fun _ => ho e rfl⟩
  | throw m =>
    refine ⟨fun _ => trivial, fun _ => ?_⟩
    simp only [catchRuntime, hq m rfl, if_true]
    exact ⟨_, _, rfl⟩
  | ub w => exact ⟨(fun ⟨_, _, h⟩ => by cases h), fun h => h.elim⟩

private theorem loadAndDump_orderly {cfg : AMQPConfig} {sys : System} {path : Str} {dump : Cursor → Res Str} (e : Ended)
    (h : loadAndDump cfg sys path dump = .ok e) : Orderly e := by
  rcases loadAndDump_exit h with rfl | ⟨s, rfl⟩ <;> exact ⟨_, _, rfl⟩

private theorem load_quiet (cfg : AMQPConfig) (f : Option (List Byte)) : (CordaBytes.load cfg f).Quiet := by
  unfold CordaBytes.load
  split
  · exact Res.quiet_throw (by decide)
  · split
    · exact Res.quiet_ub _
    · dsimp only
      split
      · exact Res.quiet_throw (by decide)
      · split
        · exact Res.quiet_ub _
        · split
          · exact Res.quiet_ok _
          · split
            · exact Res.quiet_throw (by decide)
            · exact Res.quiet_ub _

private theorem make_quiet (sys : System) (cb : CordaBytes) : (AMQPBlob.make sys cb).Quiet := by
  unfold AMQPBlob.make
  split
  · split
    · exact Res.quiet_ok _
    · exact Res.quiet_ub _
  · exact Res.quiet_ub _

private theorem loadAndDump_quiet {cfg : AMQPConfig} {sys : System} {path : Str} {dump : Cursor → Res Str} (hd : ∀ c, (dump c).Quiet) :
    (loadAndDump cfg sys path dump).Quiet := by
  unfold loadAndDump
  refine Res.quiet_bind (load_quiet _ _) fun cb => ?_
  split
  · exact Res.quiet_bind (make_quiet _ _) fun c => Res.quiet_bind (hd c) fun s => Res.quiet_ok _
  · exact Res.quiet_ok _

private theorem magic_eq : magic = [99, 111, 114, 100, 97, 1, 0] := by decide

private theorem loadAndDump_defined {sys : System} (hs : FilesFit sys) {path : Str} {b : List Byte} (hf : sys.file path = some b)
    (dump : Cursor → Res Str) : (loadAndDump {} sys path dump).Defined ↔ Copes sys b dump := by
  by_cases h8 : 8 ≤ b.length
  · obtain ⟨hdr, e, rest, rfl, hl⟩ := split_file h8
    have hne1 : hdr ++ e :: rest ≠ magic := by
      intro h; rw [h, magic_length] at h8; omega
    have hne2 : hdr ++ e :: rest ≠ magic.take 6 := by
      intro h; rw [h, List.length_take, magic_length] at h8; omega
    rw [loadAndDump_file default_valid hl hf (hs _ _ hf)]
    simp only [Bool.false_eq_true, false_or]
    by_cases h1 : hdr = magic
    · rw [if_pos h1]
      by_cases h3 : e = 0
      · subst h1 h3
        rw [if_pos (by decide), if_pos rfl]
        constructor
        · intro h
          refine ⟨hne1, hne2, fun e' payload hp => ?_, fun payload hp => ?_⟩
          · obtain ⟨-, rfl, -⟩ := app_inj hp rfl
            decide
          obtain ⟨-, -, rfl⟩ := app_inj hp rfl
          split at h
          · rename_i u n hd
            split at h
            · rename_i hu
              subst hu
              refine ⟨n, hd, ?_⟩
              cases hx : dump (Cursor.root n) with
              | ok s => trivial
              | throw m => trivial
              | ub m => rw [hx] at h; exact h
            · exact h.elim
          · exact h.elim
        · rintro ⟨-, -, -, h⟩
          obtain ⟨n, hd, hx⟩ := h rest rfl
          rw [hd]
          simp only [if_true]
          cases hx' : dump (Cursor.root n) with
          | ok s => trivial
          | throw m => trivial
          | ub m => rw [hx'] at hx; exact hx.elim
      · rw [if_neg h3]
        refine ⟨fun h => ⟨hne1, hne2, fun e' payload hp => ?_, fun payload hp => ?_⟩, fun h => ?_⟩
        · rw [← (app_inj hp (by rw [hl, magic_length])).2.1]
          by_cases h4 : e.toNat ≤ 3
          · exact h4
          · rw [if_neg (by omega), if_neg h4] at h
            exact h.elim
        · exact absurd (app_inj hp (by rw [hl, magic_length])).2.1 h3
        · have h4 : e.toNat ≤ 3 := h.2.2.1 e rest (by rw [h1])
          rw [if_pos h4]
          split <;> trivial
    · rw [if_neg h1]
      refine ⟨fun _ => ⟨hne1, hne2, fun e' payload hp => ?_, fun payload hp => ?_⟩, fun _ => trivial⟩ <;>
        exact absurd (app_inj hp (by rw [hl, magic_length])).1 h1
  · have hlong : ∀ e payload, b ≠ magic ++ e :: payload := by
      intro e payload h
      rw [h] at h8
      simp only [List.length_append, magic_length, List.length_cons] at h8
      omega
    unfold loadAndDump
    rw [hf]
    by_cases h7 : b = magic
    · subst h7
      refine ⟨fun h => ?_, fun h => absurd rfl h.1⟩
      have : CordaBytes.load {} (some magic) = .ub "encoding read uninitialised" := by decide
      rw [this] at h
      exact h.elim
    · by_cases h6 : b = magic.take 6
      · subst h6
        refine ⟨fun h => ?_, fun h => absurd rfl h.2.1⟩
        have : CordaBytes.load {} (some (magic.take 6)) = .ub "encoding read uninitialised" := by decide
        rw [this] at h
        exact h.elim
      · refine ⟨fun _ => ⟨h7, h6, fun e payload hp => absurd hp (hlong e payload), fun payload hp => absurd hp (hlong 0 payload)⟩, fun _ => ?_⟩
        have := C03_short_file_partial {} default_valid rfl b (by omega) h7 h6
        cases hx : CordaBytes.load {} (some b) with
        | ok x => rw [hx] at this; exact this.elim
        | throw m => trivial
        | ub m => rw [hx] at this; exact this.elim

/-- **C69, data dumper (partial)**: exactly when it returns a status.  Missing from the full statement: the files that are not coped with,
see `C69_violated`. -/
theorem C69_data_dumper_partial (sys : System) (hs : FilesFit sys) (args : List Str) :
    Orderly (dataDumper sys args) ↔
      ∀ path b, args = [path] → sys.file path = some b → Copes sys b fun c => (dumpData c).1 := by
  unfold dataDumper
  split
  · rename_i path
    cases hf : sys.file path with
    | none =>
      refine ⟨fun _ p b hp hb => ?_, fun _ => ⟨_, _, rfl⟩⟩
      cases hp
      rw [hf] at hb
      cases hb
    | some b =>
      simp only
      rw [orderly_iff loadAndDump_orderly (loadAndDump_quiet fun c => quiet_dumpData c), loadAndDump_defined hs hf]
      refine ⟨fun h p b' hp hb => ?_, fun h => h path b rfl hf⟩
      cases hp
      rw [hf] at hb
      cases hb
      exact h
  · rename_i hne
    exact ⟨fun _ p b hp _ => absurd hp (hne p), fun _ => ⟨_, _, rfl⟩⟩

/-- **C69, raw schema dumper (partial)**: exactly when it returns a status. -/
theorem C69_schema_dumper_raw_partial (sys : System) (hs : FilesFit sys) (path : Str) :
    Orderly (schemaDumper sys [path, "raw".toList]) ↔
      ∀ b, sys.file path = some b → Copes sys b fun c => (dumpSchema .raw c).1 := by
  unfold schemaDumper
  cases hf : sys.file path with
  | none =>
    refine ⟨fun _ b hb => (by cases hb), fun _ => ?_⟩
    simp only [hf]
    exact ⟨_, _, rfl⟩
  | some b =>
    simp only [hf]
    rw [if_neg (by decide), if_pos trivial, orderly_iff loadAndDump_orderly (loadAndDump_quiet fun c => quiet_dumpRaw c),
      loadAndDump_defined hs hf]
    refine ⟨fun h b' hb => ?_, fun h => h b rfl⟩
    cases hb
    exact h

/-- **C69, blob inspector (partial)**: exactly when it returns a status.  Nothing is caught, so every exception ends the process. -/
theorem C69_blob_inspector_partial (leftFirst : Bool) (sys : System) (hs : FilesFit sys) (args : List Str) :
    Orderly (blobInspector leftFirst sys args) ↔
      ∀ path b, args = [path] → sys.file path = some b →
        ∃ hdr e payload, hdr.length = 7 ∧ b = hdr ++ e :: payload ∧ e.toNat ≤ 2 ∧
          (e = 0 → ∃ n s, sys.decode payload = some (payload.length, n) ∧ (inspect leftFirst (Cursor.root n)).1 = .ok s) := by
  unfold blobInspector
  split
  · rename_i path
    cases hf : sys.file path with
    | none =>
      refine ⟨fun _ p b hp hb => ?_, fun _ => ⟨_, _, rfl⟩⟩
      cases hp
      rw [hf] at hb
      cases hb
    | some b =>
      simp only
      constructor
      · rintro ⟨code, out, h⟩ p b' hp hb
        cases hp
        rw [hf] at hb
        cases hb
        have hok : ∃ e, loadAndDump { ignoreHeader := true } sys path (fun c => (inspect leftFirst c).1) = .ok e := by
          cases hr : loadAndDump { ignoreHeader := true } sys path (fun c => (inspect leftFirst c).1) with
          | ok e => exact ⟨e, rfl⟩
          | throw m => rw [hr] at h; cases h
          | ub m => rw [hr] at h; cases h
        obtain ⟨en, hok⟩ := hok
        by_cases h8 : 8 ≤ b.length
        · obtain ⟨hdr, e, rest, rfl, hl⟩ := split_file h8
          rw [loadAndDump_file ignoring_valid hl hf (hs _ _ hf), if_pos (.inl rfl)] at hok
          split at hok
          · rename_i h2
            refine ⟨hdr, e, rest, hl, rfl, h2, fun h3 => ?_⟩
            rw [if_pos h3] at hok
            split at hok
            · rename_i u n hd
              split at hok
              · rename_i hu
                subst hu
                cases hx : (inspect leftFirst (Cursor.root n)).1 with
                | ok s => exact ⟨n, s, hd, hx⟩
                | throw m => rw [hx] at hok; cases hok
                | ub m => rw [hx] at hok; cases hok
              · cases hok
            · cases hok
          · split at hok <;> cases hok
        · unfold loadAndDump at hok
          rw [hf, Res.bind_eq, Res.bind_eq_ok] at hok
          obtain ⟨x, hx, -⟩ := hok
          exact absurd hx (load_short_not_ok ignoring_valid (by omega) x)
      · intro h
        obtain ⟨hdr, e, payload, hl, rfl, h2, h3⟩ := h path b rfl hf
        rw [loadAndDump_file ignoring_valid hl hf (hs _ _ hf), if_pos (.inl rfl), if_pos h2]
        by_cases he : e = 0
        · obtain ⟨n, s, hd, hx⟩ := h3 he
          rw [if_pos he, hd]
          simp only [if_true, hx, Res.bind, uncaught]
          exact ⟨_, _, rfl⟩
        · rw [if_neg he]
          exact ⟨_, _, rfl⟩
  · rename_i hne
    exact ⟨fun _ p b hp _ => absurd hp (hne p), fun _ => ⟨_, _, rfl⟩⟩

/-- Never aborted by an exception: the data dumper and the raw schema dumper. -/
theorem C69_not_terminated (sys : System) (args : List Str) (path : Str) :
    dataDumper sys args ≠ .terminated ∧ schemaDumper sys [path, "raw".toList] ≠ .terminated := by
  have key : ∀ {r : Res Ended}, (∀ e, r = .ok e → Orderly e) → r.Quiet → catchRuntime r ≠ .terminated := by
    intro r ho hq h
    cases r with
    | ok e =>
      obtain ⟨c, o, he⟩ := ho e rfl
      simp only [catchRuntime] at h
      rw [h] at he
      cases he
    | throw m => simp [catchRuntime, hq m rfl] at h
    | ub w => simp [catchRuntime] at h
  constructor
  · unfold dataDumper
    split
    · split
      · simp
      · exact key loadAndDump_orderly (loadAndDump_quiet fun c => quiet_dumpData c)
    · simp
  · unfold schemaDumper
    simp only
    split
    · simp
    · rw [if_neg (by decide), if_pos trivial]
      exact key loadAndDump_orderly (loadAndDump_quiet fun c => quiet_dumpRaw c)

/-- A system with one file content, whose payload decodes to a tree using that many bytes. -/
def oneFile (b : List Byte) (used : Nat) (n : Node) : System := ⟨fun _ => some b, fun _ => some (used, n)⟩

private def aPayload : Node := .mk .described [.mk (.symbol "net.corda:A".toList) [], .mk .list [.mk (.int 7) []]]

/-- A blob with a class `A` that has one field `x` of this type; the value holds the int 7. -/
private def withField (t : Str) : Node :=
  element 1 [aPayload,
    element 2 [.mk .list [element 5 [str "A".toList, str [], .mk .list [], element 3 [.mk (.symbol "net.corda:A".toList) [], .mk .null []],
      .mk .list [element 4 [str "x".toList, str t, .mk .list [], .mk .null [], .mk .null [], .mk (.bool true) [], .mk (.bool false) []]]]]],
    element 9 [.mk .map []]]

private def good : System := oneFile (magic ++ [0, 1, 2]) 2 (withField "int".toList)

/-- All is well when everything is in place. -/
example : blobInspector true good ["f".toList] = .exit 0 "{ Parsed : { x : 7 } }\n".toList := by decide +kernel
example : dataDumper good [] = .exit 1 [] := by decide +kernel
example : schemaDumper good ["f".toList, "json".toList] = .exit 1 [] := by decide +kernel
example : dataDumper (oneFile (magic ++ [1, 1, 2]) 2 (withField "int".toList)) ["f".toList] = .exit 1 [] := by decide +kernel
example : Orderly (dataDumper good ["f".toList]) ∧ Orderly (schemaDumper good ["f".toList, "raw".toList])
    ∧ Orderly (schemaDumper good ["f".toList, "avro".toList]) := by decide +kernel

/-- A file with a byte behind the value. -/
private def trailing : System := oneFile (magic ++ [0, 1, 2, 3]) 2 (withField "int".toList)

/-- A file with the header only. -/
private def bare : System := oneFile magic 0 (withField "int".toList)

/-- A file with 4 behind the header. -/
private def odd : System := oneFile (magic ++ [4, 1, 2]) 2 (withField "int".toList)

/-- **C69 fails**: bytes left over after the value, none at all behind the header, or a byte above 3 there fail an assertion, read an
uninitialised variable or make an enumeration value that does not exist in every tool; the Avro dump of a schema with a field of type `java.util.Map<int>` ends the process by an exception that is not
caught; the blob inspector catches none, so a type it does not know does the same. -/
theorem C69_violated :
    (¬ Orderly (dataDumper trailing ["f".toList]) ∧ ¬ Orderly (schemaDumper trailing ["f".toList, "raw".toList])
      ∧ ¬ Orderly (blobInspector true trailing ["f".toList]))
    ∧ (¬ Orderly (dataDumper bare ["f".toList]) ∧ ¬ Orderly (schemaDumper bare ["f".toList, "raw".toList])
      ∧ ¬ Orderly (blobInspector true bare ["f".toList]))
    ∧ (¬ Orderly (dataDumper odd ["f".toList]) ∧ ¬ Orderly (schemaDumper odd ["f".toList, "raw".toList])
      ∧ ¬ Orderly (blobInspector true odd ["f".toList]))
    ∧ schemaDumper (oneFile (magic ++ [0, 1, 2]) 2 (withField "java.util.Map<int>".toList)) ["f".toList, "avro".toList] = .terminated
    ∧ blobInspector true (oneFile (magic ++ [0, 1, 2]) 2 (withField "float".toList)) ["f".toList] = .terminated := by
  refine ⟨⟨?_, ?_, ?_⟩, ⟨?_, ?_, ?_⟩, ⟨?_, ?_, ?_⟩, ?_, ?_⟩ <;> decide +kernel

/-! ### C70: from writing to inspecting -/

/-- **C70**: what has been saved with `toFile` is what the tools read: if the saved bytes decode completely to a tree, the blob
inspector prints what inspecting that tree shows. -/
theorem C70_saved (leftFirst : Bool) (sys : System) (hs : FilesFit sys) (path : Str) (bytes : List Byte) (n : Node)
    (hf : sys.file path = some (CordaBytes.ofBlob bytes).toFile) (hd : sys.decode bytes = some (bytes.length, n)) (out : Str) :
    (blobInspector leftFirst sys [path] = .exit 0 (out ++ ['\n']) ↔ (inspect leftFirst (Cursor.root n)).1 = .ok out)
    ∧ (dataDumper sys [path] = .exit 0 (out ++ ['\n']) ↔ (dumpData (Cursor.root n)).1 = .ok out) := by
  have htf : (CordaBytes.ofBlob bytes).toFile = magic ++ 0 :: bytes := by
    have : (AMQP_HEADERS[1]'(by decide)).take 7 = magic := by decide
    simp [CordaBytes.toFile, CordaBytes.ofBlob, this]
  rw [htf] at hf
  refine ⟨?_, ?_⟩
  · rw [C68_blob_inspector leftFirst sys hs]
    constructor
    · rintro ⟨p, m, s, hp, ⟨hdr, payload, hl, hf', hd'⟩, hx, ho⟩
      cases hp
      rw [hf, Option.some.injEq] at hf'
      obtain ⟨-, -, rfl⟩ := app_inj hf' (by rw [hl, magic_length])
      rw [hd] at hd'
      cases hd'
      rw [List.append_cancel_right ho]
      exact hx
    · intro hx
      exact ⟨path, n, out, rfl, ⟨magic, bytes, magic_length, hf, hd⟩, hx, rfl⟩
  · rw [C68_data_dumper sys hs]
    constructor
    · rintro ⟨p, m, s, hp, ⟨payload, hf', hd'⟩, hx, ho⟩
      cases hp
      rw [hf, Option.some.injEq] at hf'
      obtain ⟨-, -, rfl⟩ := app_inj hf' rfl
      rw [hd] at hd'
      cases hd'
      rw [List.append_cancel_right ho]
      exact hx
    · intro hx
      exact ⟨path, n, out, rfl, ⟨bytes, hf, hd⟩, hx, rfl⟩

/-- **C70, end to end**: an object with members of primitive types, given in alphabetical order, is serialised; its encoding, saved,
is shown by the blob inspector as the members with their names and values. -/
theorem C70_flat_object (leftFirst : Bool) (n f : Str) (ps : List (Str × Bool × Prim)) (hn : n ∉ readable)
    (hk : n ≠ publicKeyType) (hp : ∀ x ∈ ps, Prim.shows x.2.2) (ho : ps.Pairwise fun a b => strLt a.1 b.1 = true) :
    ∃ node, serialise (.comp n f (primMembers ps)) = .ok [node] ∧
      ∀ (sys : System) (path : Str) (bytes : List Byte), FilesFit sys → sys.file path = some (CordaBytes.ofBlob bytes).toFile →
        sys.decode bytes = some (bytes.length, node) →
        blobInspector leftFirst sys [path] = .exit 0 ("{ Parsed : ".toList ++
          braces (ps.map fun x => colon x.1 (shown (primVal x.2.2))) ++ " }".toList ++ ['\n']) := by
  obtain ⟨node, hw, hi⟩ := C38_inspect_flat leftFirst n f ps hn hk hp ho
  refine ⟨node, hw, fun sys path bytes hs hf hd => ?_⟩
  rw [(C70_saved leftFirst sys hs path bytes node hf hd _).1, hi (Cursor.root node) rfl]

#print axioms C68_data_dumper
#print axioms C68_schema_dumper
#print axioms C68_blob_inspector
#print axioms C68_silent_failure
#print axioms C69_data_dumper_partial
#print axioms C69_schema_dumper_raw_partial
#print axioms C69_blob_inspector_partial
#print axioms C69_not_terminated
#print axioms C69_violated
#print axioms C70_saved
#print axioms C70_flat_object

end Corda.Props
