import Verif.Spec.StdErr
import Verif.Lemmas.Alike

/-
C117: what the tools say on standard error.
-/

namespace Corda.Props
open Corda Prog Spec

/-! ### The same ends -/

private theorem loadErr_fst (signed : Bool) (cfg : AMQPConfig) (sys : System) (path : Str) (dump : Cursor → Res Str) :
    (loadAndDumpErr signed cfg sys path dump).1 = loadAndDump cfg sys path dump := by
  unfold loadAndDumpErr loadAndDump
  cases CordaBytes.load cfg (sys.file path) with
  | ok cb =>
    simp only [Res.bind_eq, Res.bind]
    split <;> rfl
  | throw m => rfl
  | ub w => rfl

private theorem catch_fst (r : Res Ended × List ErrPiece) : (catchRuntimeErr r).1 = catchRuntime r.1 := by
  obtain ⟨r, said⟩ := r
  cases r with
  | ok e => rfl
  | throw m => simp only [catchRuntimeErr, catchRuntime]; split <;> rfl
  | ub w => rfl

/-- **C117**: the tools that say something on standard error are the tools of the other claims. -/
theorem C117_same_ends (signed leftFirst : Bool) (sys : System) (args : List Str) :
    (dataDumperErr signed sys args).1 = dataDumper sys args ∧ (schemaDumperErr signed sys args).1 = schemaDumper sys args
    ∧ (blobInspectorErr signed leftFirst sys args).1 = blobInspector leftFirst sys args := by
  refine ⟨?_, ?_, ?_⟩
  · match args with
    | [] => rfl
    | [path] =>
      unfold dataDumperErr dataDumper
      simp only
      cases sys.file path with
      | none => rfl
      | some b => simp only [catch_fst, loadErr_fst]
    | _ :: _ :: _ => rfl
  · match args with
    | [] => rfl
    | [_] => rfl
    | [path, flag] =>
      unfold schemaDumperErr schemaDumper
      simp only
      cases sys.file path with
      | none => rfl
      | some b =>
        simp only
        split
        · rw [catch_fst, loadErr_fst]
        · split
          · rw [catch_fst, loadErr_fst]
          · rfl
    | _ :: _ :: _ :: _ => rfl
  · match args with
    | [] => rfl
    | [path] =>
      unfold blobInspectorErr blobInspector
      simp only
      cases sys.file path with
      | none => rfl
      | some b => simp only [loadErr_fst]
    | _ :: _ :: _ => rfl

/-! ### What is said of the header and the encoding -/

private theorem charInt_eq (signed : Bool) (b : Byte) : charInt signed b = asNumber signed b := by
  unfold charInt asNumber
  cases signed with
  | false => simp
  | true =>
    by_cases h : b.toNat < 128
    · rw [if_neg (by simp; omega), if_neg (by simp [h])]
    · rw [if_pos ⟨rfl, by omega⟩, if_pos ⟨rfl, h⟩]
      omega

private theorem badHeader_eq (signed : Bool) (hdr : List Byte) : badHeader signed hdr = headerLine signed hdr := by
  unfold badHeader headerLine
  have : (fun b => intStr (charInt signed b) ++ " ".toList) = fun b => decimal (asNumber signed b) ++ [' '] := by
    funext b
    rw [intStr_eq, charInt_eq]
    rfl
  rw [this]
  rfl

private theorem badEncoding_eq (e : Byte) : badEncoding e = encodingLine e := by
  unfold badEncoding encodingLine
  have h0 : natStr 0 = ['0'] := by decide
  have h1 : " != 0\n".toList = " != ".toList ++ ['0'] ++ nl := by decide
  rw [natStr_eq, h0, h1]
  simp only [List.append_assoc]

private theorem split8 {b : List Byte} (h : 8 ≤ b.length) : ∃ hdr e rest, b = hdr ++ e :: rest ∧ hdr.length = 7 := by
  refine ⟨b.take 7, b[7]'(by omega), b.drop 8, ?_, by simp; omega⟩
  have h1 : b.take 7 ++ b.drop 7 = b := List.take_append_drop 7 b
  rw [List.drop_eq_getElem_cons (by omega : 7 < b.length)] at h1
  exact h1.symm

private theorem contains_magic (l : List Byte) : AMQP_HEADERS.contains l = decide (l = magic) := by
  have : AMQP_HEADERS = [magic, magic] := by decide
  rw [this]
  by_cases h : l = magic <;> simp [h]

private theorem loadErr_strict (signed : Bool) (file : Option (List Byte)) : CordaBytes.loadErr signed {} file = [] := by
  unfold CordaBytes.loadErr
  split
  · rfl
  · split
    · rfl
    · simp

private theorem loadErr_lax (signed : Bool) {content : List Byte} (h : 7 ≤ content.length) :
    CordaBytes.loadErr signed { ignoreHeader := true } (some content) = aboutHeader signed content := by
  have h7 : (readInto (List.replicate 7 0) 7 content).1 = content.take 7 := by
    unfold readInto
    simp [List.length_take, Nat.min_eq_left h]
  have hm : AMQP_HEADERS[1]? = some magic := by decide
  unfold CordaBytes.loadErr aboutHeader
  simp only [hm, h7, contains_magic, badHeader_eq, decide_eq_true_eq, if_true]

private theorem take7 {hdr : List Byte} (hl : hdr.length = 7) (t : List Byte) : (hdr ++ t).take 7 = hdr := by
  rw [← hl, List.take_left]

private theorem get7 {hdr : List Byte} (hl : hdr.length = 7) (e : Byte) (t : List Byte) : (hdr ++ e :: t)[7]? = some e := by
  rw [List.getElem?_append_right (by omega), hl]
  rfl

private theorem small_enc {e : Byte} (h : e.toNat ≤ 2) (h0 : e ≠ 0) : e = 1 ∨ e = 2 := by
  have : e.toNat = 0 ∨ e.toNat = 1 ∨ e.toNat = 2 := by omega
  rcases this with h | h | h
  · exact absurd (UInt8.toNat_inj.mp h) h0
  · exact .inl (UInt8.toNat_inj.mp h)
  · exact .inr (UInt8.toNat_inj.mp h)

/-- Both results on a file of at least eight bytes. -/
private theorem both_file {cfg : AMQPConfig} (hc : ValidConfig cfg) (signed : Bool) {sys : System} {path : Str} {hdr : List Byte} {e : Byte}
    {rest : List Byte} (hl : hdr.length = 7) (hf : sys.file path = some (hdr ++ e :: rest))
    (hs : (hdr ++ e :: rest).length < 2 ^ 63) (dump : Cursor → Res Str) :
    (loadAndDumpErr signed cfg sys path dump).2 = CordaBytes.loadErr signed cfg (some (hdr ++ e :: rest)) ++
      if (cfg.ignoreHeader = true ∨ hdr = magic) ∧ (e = 1 ∨ e = 2) then [.text (encodingLine e)] else [] := by
  unfold loadAndDumpErr
  rw [hf, load_eq cfg hc hdr hl e rest hs]
  by_cases h1 : cfg.ignoreHeader = true ∨ hdr = magic
  · rw [if_pos h1]
    by_cases h2 : e.toNat ≤ 2
    · rw [if_pos h2]
      by_cases h3 : e = 0
      · subst h3
        simp
      · simp only [if_neg h3, h1, small_enc h2 h3, and_self, if_true, badEncoding_eq]
    · have h3 : ¬ (e = 1 ∨ e = 2) := by
        rintro (rfl | rfl) <;> exact h2 (by decide)
      rw [if_neg h2, show (if (cfg.ignoreHeader = true ∨ hdr = magic) ∧ (e = 1 ∨ e = 2) then [ErrPiece.text (encodingLine e)] else [])
        = [] from if_neg fun h => h3 h.2, List.append_nil]
      by_cases h4 : e.toNat ≤ 3
      · rw [if_pos h4]
      · rw [if_neg h4]
  · rw [if_neg h1, if_neg (fun h => h1 h.1), List.append_nil]

/-! ### The dumpers -/

private theorem dump_said (signed : Bool) {sys : System} (hs : FilesFit sys) {path : Str} {content : List Byte}
    (hf : sys.file path = some content) {dump : Cursor → Res Str} {code : Nat} {out : Str} {err : List ErrPiece}
    (h : catchRuntimeErr (loadAndDumpErr signed {} sys path dump) = (.exit code out, err)) :
    (code = 0 ∧ err = []) ∨ (code = 1 ∧ out = [] ∧ Explained sys dump content err) := by
  have hv : ValidConfig {} := .inr rfl
  by_cases h8 : 8 ≤ content.length
  · obtain ⟨hdr, e, rest, rfl, hl⟩ := split8 h8
    have h1 := loadErr_fst signed {} sys path dump
    rw [loadAndDump_file hv hl hf (hs _ _ hf)] at h1
    have h2 := both_file hv signed hl hf (hs _ _ hf) dump
    rw [loadErr_strict, List.nil_append] at h2
    rcases hx : loadAndDumpErr signed {} sys path dump with ⟨r, said⟩
    rw [hx] at h h1 h2
    simp only at h1 h2
    simp only [Bool.false_eq_true, false_or] at h1 h2
    unfold Explained Raises OtherEncoding
    rw [take7 hl, get7 hl]
    by_cases hm : hdr = magic
    · rw [if_pos hm] at h1
      by_cases h3 : e.toNat ≤ 2
      · rw [if_pos h3] at h1
        by_cases h4 : e = 0
        · subst h4
          rw [if_neg (by simp)] at h2
          subst h2
          rw [if_pos rfl] at h1
          cases hd : sys.decode rest with
          | none => rw [hd] at h1; subst h1; simp [catchRuntimeErr] at h
          | some x =>
            obtain ⟨u, n⟩ := x
            rw [hd] at h1
            simp only at h1
            by_cases hu : u = rest.length
            · rw [if_pos hu] at h1
              subst hu
              cases hq : dump (Cursor.root n) with
              | ok s =>
                rw [hq] at h1
                subst h1
                simp only [Res.bind, catchRuntimeErr, Prod.mk.injEq, Ended.exit.injEq] at h
                exact .inl ⟨h.1.1.symm, h.2.symm⟩
              | throw m =>
                rw [hq] at h1
                subst h1
                simp only [Res.bind, catchRuntimeErr] at h
                split at h
                · rename_i hr
                  simp only [Prod.mk.injEq, Ended.exit.injEq, List.nil_append] at h
                  refine .inr ⟨h.1.1.symm, h.1.2.symm, .inr ⟨m, .inr (.inr ⟨rest, n, by rw [hm], hd, hq⟩), hr, h.2.symm⟩⟩
                · simp at h
              | ub w => rw [hq] at h1; subst h1; simp [Res.bind, catchRuntimeErr] at h
            · rw [if_neg hu] at h1
              subst h1
              simp [catchRuntimeErr] at h
        · rw [if_neg h4] at h1
          rw [if_pos ⟨hm, small_enc h3 h4⟩] at h2
          subst h1 h2
          simp only [catchRuntimeErr, Prod.mk.injEq, Ended.exit.injEq] at h
          exact .inr ⟨h.1.1.symm, h.1.2.symm, .inl ⟨e, hm, ⟨rfl, small_enc h3 h4⟩, h.2.symm⟩⟩
      · have h5 : ¬ (e = 1 ∨ e = 2) := by
          rintro (rfl | rfl) <;> exact h3 (by decide)
        rw [if_neg h3] at h1
        rw [if_neg (fun h => h5 h.2)] at h2
        subst h2
        by_cases h6 : e.toNat ≤ 3
        · rw [if_pos h6] at h1
          subst h1
          have he : e = 3 := UInt8.toNat_inj.mp (by show e.toNat = 3; omega)
          simp only [catchRuntimeErr] at h
          rw [if_pos (by decide)] at h
          simp only [Prod.mk.injEq, Ended.exit.injEq, List.nil_append] at h
          exact .inr ⟨h.1.1.symm, h.1.2.symm, .inr ⟨_, .inr (.inl ⟨by rw [he], rfl⟩), by decide, h.2.symm⟩⟩
        · rw [if_neg h6] at h1
          subst h1
          simp [catchRuntimeErr] at h
    · rw [if_neg hm] at h1
      rw [if_neg (fun h => hm h.1)] at h2
      subst h1 h2
      simp only [catchRuntimeErr] at h
      rw [if_pos (by decide)] at h
      simp only [Prod.mk.injEq, Ended.exit.injEq, List.nil_append] at h
      exact .inr ⟨h.1.1.symm, h.1.2.symm, .inr ⟨_, .inl ⟨hm, rfl⟩, by decide, h.2.symm⟩⟩
  · unfold loadAndDumpErr at h
    rw [hf, loadErr_strict] at h
    have hd : content.drop 7 = [] := List.drop_eq_nil_of_le (by omega)
    have hm : AMQP_HEADERS[1]? = some magic := by decide
    have hL : CordaBytes.load {} (some content) =
        if (readInto (List.replicate 7 0) 7 content).1 = magic then .ub "encoding read uninitialised" else .throw "Not a Corda stream" := by
      unfold CordaBytes.load
      simp only [hm, contains_magic, readInto, hd]
      split <;> simp_all
    rw [hL] at h
    by_cases hr : (readInto (List.replicate 7 0) 7 content).1 = magic
    · rw [if_pos hr] at h
      simp [catchRuntimeErr] at h
    · rw [if_neg hr] at h
      simp only [catchRuntimeErr] at h
      rw [if_pos (by decide)] at h
      simp only [Prod.mk.injEq, Ended.exit.injEq, List.nil_append] at h
      refine .inr ⟨h.1.1.symm, h.1.2.symm, .inr ⟨_, .inl ⟨fun ht => hr ?_, rfl⟩, by decide, h.2.symm⟩⟩
      have hlen : content.length = 7 := by
        have := congrArg List.length ht
        rw [List.length_take, show magic.length = 7 by decide] at this
        omega
      unfold readInto
      rw [ht]
      show magic ++ List.drop magic.length (List.replicate 7 0) = magic
      decide

/-- **C117, the data dumper.** -/
theorem C117_data_dumper_partial (signed : Bool) (sys : System) (hs : FilesFit sys) (args : List Str) (code : Nat) (out : Str)
    (err : List ErrPiece) (h : dataDumperErr signed sys args = (.exit code out, err)) :
    (code = 0 ∧ err = []) ∨ (code = 1 ∧ out = [] ∧
      ((args.length ≠ 1 ∧ err = [.text "ERROR! - usage\n\t./data-dumper file\n".toList])
      ∨ ∃ path, args = [path] ∧ ((sys.file path = none ∧ err = [])
        ∨ ∃ content, sys.file path = some content ∧ Explained sys (fun c => (dumpData c).1) content err))) := by
  unfold dataDumperErr at h
  split at h
  · rename_i path
    split at h
    · rename_i hf
      simp only [Prod.mk.injEq, Ended.exit.injEq] at h
      exact .inr ⟨h.1.1.symm, h.1.2.symm, .inr ⟨path, rfl, .inl ⟨hf, h.2.symm⟩⟩⟩
    · rename_i content hf
      rcases dump_said signed hs hf h with h | ⟨h1, h2, h3⟩
      · exact .inl h
      · exact .inr ⟨h1, h2, .inr ⟨path, rfl, .inr ⟨content, hf, h3⟩⟩⟩
  · rename_i hne
    simp only [Prod.mk.injEq, Ended.exit.injEq] at h
    refine .inr ⟨h.1.1.symm, h.1.2.symm, .inl ⟨fun hl => ?_, ?_⟩⟩
    · obtain ⟨a, ha⟩ := List.length_eq_one_iff.mp hl
      exact hne a ha
    · rw [← h.2]
      decide

/-- **C117, the schema dumper.** -/
theorem C117_schema_dumper_partial (signed : Bool) (sys : System) (hs : FilesFit sys) (args : List Str) (code : Nat) (out : Str)
    (err : List ErrPiece) (h : schemaDumperErr signed sys args = (.exit code out, err)) :
    (code = 0 ∧ err = []) ∨ (code = 1 ∧ out = [] ∧
      ((args.length ≠ 2 ∧ err = [.text "ERROR! - usage\n\t./schema-dumper file <mode>\n".toList])
      ∨ ∃ path flag, args = [path, flag] ∧ ((sys.file path = none ∧ err = [])
        ∨ ∃ content, sys.file path = some content ∧
          ((flag ≠ "avro".toList ∧ flag ≠ "raw".toList ∧ err = [.text "ERROR! - usage\n\t./schema-dumper file <mode>\n".toList])
          ∨ (flag = "avro".toList ∧ Explained sys (fun c => (dumpSchema .avro c).1) content err)
          ∨ (flag = "raw".toList ∧ Explained sys (fun c => (dumpSchema .raw c).1) content err))))) := by
  have hu : "ERROR! - usage\n\t./schema-dumper file <mode>\n".toList = schemaDumperUsage := by decide
  unfold schemaDumperErr at h
  split at h
  · rename_i path flag
    split at h
    · rename_i hf
      simp only [Prod.mk.injEq, Ended.exit.injEq] at h
      exact .inr ⟨h.1.1.symm, h.1.2.symm, .inr ⟨path, flag, rfl, .inl ⟨hf, h.2.symm⟩⟩⟩
    · rename_i content hf
      split at h
      · rename_i ha
        rcases dump_said signed hs hf h with h | ⟨h1, h2, h3⟩
        · exact .inl h
        · exact .inr ⟨h1, h2, .inr ⟨path, flag, rfl, .inr ⟨content, hf, .inr (.inl ⟨ha, h3⟩)⟩⟩⟩
      · rename_i ha
        split at h
        · rename_i hr
          rcases dump_said signed hs hf h with h | ⟨h1, h2, h3⟩
          · exact .inl h
          · exact .inr ⟨h1, h2, .inr ⟨path, flag, rfl, .inr ⟨content, hf, .inr (.inr ⟨hr, h3⟩)⟩⟩⟩
        · rename_i hr
          simp only [Prod.mk.injEq, Ended.exit.injEq] at h
          exact .inr ⟨h.1.1.symm, h.1.2.symm, .inr ⟨path, flag, rfl, .inr ⟨content, hf, .inl ⟨ha, hr, by rw [hu]; exact h.2.symm⟩⟩⟩⟩
  · rename_i hne
    simp only [Prod.mk.injEq, Ended.exit.injEq] at h
    refine .inr ⟨h.1.1.symm, h.1.2.symm, .inl ⟨fun hl => ?_, by rw [hu]; exact h.2.symm⟩⟩
    match args, hl, hne with
    | [a, b], _, hne => exact hne a b rfl

private theorem explained_ne {sys : System} {dump : Cursor → Res Str} {content : List Byte} {err : List ErrPiece}
    (h : Explained sys dump content err) : err ≠ [] := by
  rcases h with ⟨e, -, -, rfl⟩ | ⟨m, -, -, rfl⟩ <;> simp [exceptionLine]

/-- **C117, the dumpers in short**: a dumper that fails says nothing in one case only, when there is no such file. -/
theorem C117_dumpers_silent (signed : Bool) (sys : System) (hs : FilesFit sys) (args : List Str) :
    ((∃ code out, code ≠ 0 ∧ dataDumperErr signed sys args = (.exit code out, [])) ↔ ∃ path, args = [path] ∧ sys.file path = none)
    ∧ ((∃ code out, code ≠ 0 ∧ schemaDumperErr signed sys args = (.exit code out, [])) ↔
      ∃ path flag, args = [path, flag] ∧ sys.file path = none) := by
  refine ⟨⟨?_, ?_⟩, ⟨?_, ?_⟩⟩
  · rintro ⟨code, out, hc, h⟩
    rcases C117_data_dumper_partial signed sys hs args code out [] h with ⟨h0, -⟩ | ⟨-, -, ⟨-, h⟩ | ⟨p, ha, ⟨hf, -⟩ | ⟨c, -, h⟩⟩⟩
    · exact absurd h0 hc
    · simp at h
    · exact ⟨p, ha, hf⟩
    · exact absurd rfl (explained_ne h)
  · rintro ⟨p, rfl, hf⟩
    exact ⟨1, [], by simp, by simp only [dataDumperErr, hf]; rfl⟩
  · rintro ⟨code, out, hc, h⟩
    rcases C117_schema_dumper_partial signed sys hs args code out [] h with
      ⟨h0, -⟩ | ⟨-, -, ⟨-, h⟩ | ⟨p, g, ha, ⟨hf, -⟩ | ⟨c, -, ⟨-, -, h⟩ | ⟨-, h⟩ | ⟨-, h⟩⟩⟩⟩
    · exact absurd h0 hc
    · simp at h
    · exact ⟨p, g, ha, hf⟩
    · simp at h
    · exact absurd rfl (explained_ne h)
    · exact absurd rfl (explained_ne h)
  · rintro ⟨p, g, rfl, hf⟩
    exact ⟨1, [], by simp, by simp only [schemaDumperErr, hf]; rfl⟩

/-! ### The blob inspector -/

/-- **C117, the blob inspector**: about a file it says what the header is unless it is the header, whether it succeeds, fails or ends with an
exception; that the encoding is another one; and otherwise nothing, not when there is no such file or no argument either. -/
theorem C117_blob_inspector_partial (signed leftFirst : Bool) (sys : System) (hs : FilesFit sys) (args : List Str) (e : Ended)
    (err : List ErrPiece) (h : blobInspectorErr signed leftFirst sys args = (e, err)) :
    (args.length ≠ 1 ∧ e = .exit 1 [] ∧ err = [])
    ∨ ∃ path, args = [path] ∧ ((sys.file path = none ∧ e = .exit 1 [] ∧ err = [])
      ∨ ∃ content, sys.file path = some content ∧ (content.length < 8 ∧ (∃ w, e = .ub w)
        ∨ 8 ≤ content.length ∧ ((∃ b, OtherEncoding content b ∧ e = .exit 1 [] ∧ err = aboutHeader signed content ++ [.text (encodingLine b)])
          ∨ (¬ ∃ b, OtherEncoding content b) ∧ (∀ out, e ≠ .exit 1 out) ∧ err = aboutHeader signed content))) := by
  unfold blobInspectorErr at h
  split at h
  · rename_i path
    refine .inr ⟨path, rfl, ?_⟩
    split at h
    · rename_i hf
      simp only [Prod.mk.injEq] at h
      exact .inl ⟨hf, h.1.symm, h.2.symm⟩
    · rename_i content hf
      refine .inr ⟨content, hf, ?_⟩
      have hv : ValidConfig { ignoreHeader := true } := .inr rfl
      have h1 := loadErr_fst signed { ignoreHeader := true } sys path fun c => (inspect leftFirst c).1
      rcases hx : loadAndDumpErr signed { ignoreHeader := true } sys path fun c => (inspect leftFirst c).1 with ⟨r, said⟩
      rw [hx] at h h1
      simp only [Prod.mk.injEq] at h h1
      obtain ⟨rfl, rfl⟩ := h
      by_cases h8 : 8 ≤ content.length
      · refine .inr ⟨h8, ?_⟩
        obtain ⟨hdr, b, rest, rfl, hl⟩ := split8 h8
        rw [loadAndDump_file hv hl hf (hs _ _ hf)] at h1
        have h2 := both_file hv signed hl hf (hs _ _ hf) fun c => (inspect leftFirst c).1
        rw [hx, loadErr_lax signed (by omega)] at h2
        simp only [true_or, if_true, true_and] at h1 h2
        unfold OtherEncoding
        rw [get7 hl]
        by_cases hb : b = 1 ∨ b = 2
        · rw [if_pos hb] at h2
          refine .inl ⟨b, ⟨rfl, hb⟩, ?_, h2⟩
          rw [if_pos (by rcases hb with rfl | rfl <;> decide), if_neg (by rcases hb with rfl | rfl <;> decide)] at h1
          rw [h1]
          rfl
        · rw [if_neg hb, List.append_nil] at h2
          refine .inr ⟨?_, ?_, h2⟩
          · rintro ⟨b', hb', h'⟩
            cases hb'
            exact hb h'
          · intro out
            subst h1
            split
            · split
              · split
                · split
                  · rename_i n _ _
                    cases hq : (inspect leftFirst (Cursor.root n)).1 <;> simp [Res.bind, uncaught]
                  · simp [uncaught]
                · simp [uncaught]
              · rename_i h3 h4
                exact absurd (small_enc h3 h4) hb
            · split <;> simp [uncaught]
      · refine .inl ⟨by omega, ?_⟩
        have hd : content.drop 7 = [] := List.drop_eq_nil_of_le (by omega)
        have hm : AMQP_HEADERS[1]? = some magic := by decide
        have hL : CordaBytes.load { ignoreHeader := true } (some content) = .ub "encoding read uninitialised" := by
          unfold CordaBytes.load
          simp only [hm, readInto, hd]
          simp
        unfold loadAndDump at h1
        rw [hf, hL] at h1
        rw [h1]
        exact ⟨_, rfl⟩
  · rename_i hne
    simp only [Prod.mk.injEq] at h
    refine .inl ⟨fun hl => ?_, h.1.symm, h.2.symm⟩
    obtain ⟨a, ha⟩ := List.length_eq_one_iff.mp hl
    exact hne a ha

/-! ### The header -/

private theorem blank_inj : ∀ {a b c d : Str}, ' ' ∉ a → ' ' ∉ b → a ++ ' ' :: c = b ++ ' ' :: d → a = b ∧ c = d
  | [], [], _, _, _, _, h => ⟨rfl, (List.cons.inj h).2⟩
  | [], y :: b, _, _, _, hb, h => absurd (List.mem_cons.mpr (.inl (List.cons.inj h).1)) hb
  | x :: a, [], _, _, ha, _, h => absurd (List.mem_cons.mpr (.inl (List.cons.inj h).1.symm)) ha
  | x :: a, y :: b, _, _, ha, hb, h => by
    obtain ⟨h1, h2⟩ := List.cons.inj h
    obtain ⟨h3, h4⟩ := blank_inj (fun hm => ha (List.mem_cons_of_mem _ hm)) (fun hm => hb (List.mem_cons_of_mem _ hm)) h2
    exact ⟨by rw [h1, h3], h4⟩

private theorem decimalNat_blank (n : Nat) : ' ' ∉ decimalNat n := by
  induction n using Nat.strongRecOn with
  | _ n ih =>
    have hd : ∀ k, k < 10 → ' ' ≠ digit k := by decide
    unfold decimalNat
    split
    · rename_i h
      simpa using hd n h
    · intro hm
      rcases List.mem_append.mp hm with hm | hm
      · exact ih (n / 10) (by omega) hm
      · exact hd (n % 10) (by omega) (by simpa using hm)

private theorem decimal_blank (k : Int) : ' ' ∉ decimal k := by
  unfold decimal
  split
  · intro hm
    rcases List.mem_cons.mp hm with hm | hm
    · cases hm
    · exact decimalNat_blank _ hm
  · exact decimalNat_blank _

private theorem asNumber_inj {signed : Bool} {a b : Byte} (h : asNumber signed a = asNumber signed b) : a = b := by
  have ha := UInt8.toNat_lt a
  have hb := UInt8.toNat_lt b
  apply UInt8.toNat_inj.mp
  unfold asNumber at h
  cases signed with
  | false => simp at h; omega
  | true =>
    by_cases h1 : a.toNat < 128 <;> by_cases h2 : b.toNat < 128 <;> simp [h1, h2] at h <;> omega

/-- **C117, the header**: the line about a header shows the header: two headers of which it is the same are the same. -/
theorem C117_header_shown (signed : Bool) (h1 h2 : List Byte) (h : headerLine signed h1 = headerLine signed h2) : h1 = h2 := by
  unfold headerLine at h
  have h := List.append_cancel_left (List.append_cancel_right h)
  induction h1 generalizing h2 with
  | nil =>
    cases h2 with
    | nil => rfl
    | cons b t => simp at h
  | cons a s ih =>
    cases h2 with
    | nil => simp at h
    | cons b t =>
      simp only [List.map_cons, List.flatten_cons, List.append_assoc, List.singleton_append] at h
      obtain ⟨h3, h4⟩ := blank_inj (decimal_blank _) (decimal_blank _) h
      rw [asNumber_inj (decimal_inj h3), ih t (by rw [h4]) h4]

/-! ### Where nothing is said, or the wrong name -/

/-- A machine where every file is this one, and of which everything that is decoded is a null. -/
private def holding (content : List Byte) : System := ⟨fun _ => some content, fun b => some (b.length, .mk .null [])⟩

/-- **C117 is not true of all programs**: every tool fails without a word when there is no such file, the blob inspector also when it is not given one;
and of the thirteen sample programs that say how they are used, six call themselves by the name of another one and one by a name that none has. -/
theorem C117_violated :
    (∃ bare : System, ∀ signed leftFirst path flag, dataDumperErr signed bare [path] = (.exit 1 [], []) ∧ schemaDumperErr signed bare [path, flag] = (.exit 1 [], [])
      ∧ blobInspectorErr signed leftFirst bare [path] = (.exit 1 [], []) ∧ blobInspectorErr signed leftFirst bare [] = (.exit 1 [], []))
    ∧ sampleUsages.length = 13
    ∧ (sampleUsages.filter fun x => x.2 ≠ x.1 && (sampleUsages.map (·.1)).contains x.2).map (·.1) =
      ["writer-test-07", "writer-test-08", "writer-test-09", "writer-test-10", "writer-test-11", "writer-test-12"]
    ∧ (sampleUsages.filter fun x => !(sampleUsages.map (·.1)).contains x.2) = [("reader-test-01", "reader-test-1")] := by
  refine ⟨⟨⟨fun _ => none, fun _ => none⟩, fun _ _ _ _ => ⟨rfl, rfl, rfl, rfl⟩⟩, by decide, by decide, by decide⟩

/-! ### Examples -/

/-- A file that is compressed. -/
example : dataDumperErr true (holding (magic ++ [1, 5, 6])) ["f".toList] = (.exit 1 [], [.text "BAD ENCODING 1 != 0\n".toList]) := by decide +kernel

/-- A file that is something else, asked for with a bad mode and with a good one. -/
example : schemaDumperErr true (holding [1, 2, 3, 4, 5, 6, 7, 8, 9]) ["f".toList, "xml".toList] =
      (.exit 1 [], [.text "ERROR! - usage\n\t./schema-dumper file <mode>\n".toList])
    ∧ schemaDumperErr true (holding [1, 2, 3, 4, 5, 6, 7, 8, 9]) ["f".toList, "raw".toList] =
      (.exit 1 [], [.what "Not a Corda stream", .text "\n".toList]) := by decide +kernel

/-- The blob inspector with a file that is something else: the header is shown as seven numbers, which depend on the machine. -/
example : blobInspectorErr true false (holding [0xca, 0xfe, 0, 1, 127, 128, 255, 2, 9]) ["f".toList] =
      (.exit 1 [], [.text "Bad Header: -54 -2 0 1 127 -128 -1 \n".toList, .text "BAD ENCODING 2 != 0\n".toList])
    ∧ blobInspectorErr false false (holding [0xca, 0xfe, 0, 1, 127, 128, 255, 2, 9]) ["f".toList] =
      (.exit 1 [], [.text "Bad Header: 202 254 0 1 127 128 255 \n".toList, .text "BAD ENCODING 2 != 0\n".toList]) := by decide +kernel

/-- An unknown encoding: the dumper says so, the inspector is aborted. -/
example : dataDumperErr true (holding (magic ++ [3])) ["f".toList] = (.exit 1 [], [.what "Unknown encoding encountered", .text "\n".toList])
    ∧ blobInspectorErr true true (holding (magic ++ [3])) ["f".toList] = (.terminated, []) := by decide +kernel

#print axioms C117_same_ends
#print axioms C117_data_dumper_partial
#print axioms C117_schema_dumper_partial
#print axioms C117_dumpers_silent
#print axioms C117_blob_inspector_partial
#print axioms C117_header_shown
#print axioms C117_violated

end Corda.Props
