import Verif.Props.Trace
import Verif.Props.Tools

/-
C97: the standard output of the data dumper as a whole.
-/

namespace Corda.Props
open Corda Prog Spec

/-! ### The tool -/

private theorem loadAndPrint_end (f : Files) (sys : System) (path : Str) :
    (loadAndPrint f sys path).1 = loadAndDump {} sys path fun c => (Prog.dumpData c).1 := by
  unfold loadAndPrint loadAndDump
  cases CordaBytes.load {} (sys.file path) with
  | ok cb =>
    simp only [Res.bind_eq, Res.bind]
    split
    · cases AMQPBlob.make sys cb with
      | ok c =>
        have h := TProg.erase_dumpData f c
        simp only
        rw [← h]
        rcases TProg.dumpData f c with ⟨⟨r, c'⟩, o⟩
        cases r <;> rfl
      | throw m => rfl
      | ub m => rfl
    · rfl
  | throw m => rfl
  | ub m => rfl

/-- **C97, the end.** The trace changes nothing about how the data dumper ends. -/
theorem C97_end (f : Files) (sys : System) (args : List Str) : (dataDumperOutput f sys args).1 = dataDumper sys args := by
  unfold dataDumperOutput dataDumper
  cases args with
  | nil => rfl
  | cons path l =>
    cases l with
    | nil =>
      simp only
      cases sys.file path with
      | none => rfl
      | some b => simp only [loadAndPrint_end]
    | cons _ _ => rfl

private theorem printed_blob (f : Files) {sys : System} (hs : FilesFit sys) {path : Str} {n : Node} (h : HoldsBlob sys path n) :
    (dataDumperOutput f sys [path]).2 = (dataTold (sources f) (some n)).out ++
      (match dataText (some n) with | .ok s => [s ++ "\n".toList] | _ => []) := by
  obtain ⟨payload, hf, hd⟩ := h
  unfold dataDumperOutput
  simp only [hf]
  unfold loadAndPrint
  have hl : CordaBytes.load {} (sys.file path) = .ok ⟨0, payload.length, payload⟩ := by
    rw [hf, load_eq {} default_valid magic magic_length 0 payload (hs _ _ hf)]
    simp
  have hm : AMQPBlob.make sys ⟨0, payload.length, payload⟩ = .ok (Cursor.root n) := by
    unfold AMQPBlob.make
    simp only [hd, if_true]
  have ht := (C97_trace f (Cursor.root n)).1
  have hc : (Cursor.root n).cur = some n := rfl
  rw [hc] at ht
  rw [hl]
  simp only [if_true, hm, ht]
  cases dataText (some n) <;> simp [nl]

/-- **C97, the output.** What the data dumper prints when given a file with a blob: the trace, and if there is a dump, the dump and a line
end after it. -/
theorem C97_output (f : Files) (sys : System) (hs : FilesFit sys) (path : Str) (n : Node) (h : HoldsBlob sys path n) :
    (dataDumperOutput f sys [path]).2.flatten = (dataTold (sources f) (some n)).out.flatten ++
      (match dataText (some n) with | .ok s => s ++ "\n".toList | _ => []) := by
  rw [printed_blob f hs h, List.flatten_append]
  cases dataText (some n) <;> simp

private theorem out_bind_ok {α β : Type} {r : Told α} {a : α} (h : r.res = .ok a) (k : α → Told β) :
    (r >>= k).out = r.out ++ (k a).out := by
  obtain ⟨x, o⟩ := r
  dsimp only at h
  subst h
  rfl

/-- A dump that succeeds has printed that there is a list, that something is described, that a string is read, and a descriptor. -/
private theorem told_begins {s : Sources} {n : Option Node} {x : Str} (h : (dataTold s n).res = .ok x) :
    ∃ d l, (dataTold s n).out = [listLine s ++ "\n".toList, describedLine s ++ "\n".toList, stringLine ++ "\n".toList,
      nameLine s d ++ "\n".toList] ++ l := by
  unfold dataTold at h ⊢
  by_cases h1 : typeHere n = .described
  · rw [if_pos h1] at h ⊢
    by_cases h2 : numberHere (nth (kidsOf n) 0) % 2 ^ 32 = 1
    · rw [if_pos h2] at h ⊢
      cases h3 : listParts (nth (kidsOf n) 1) with
      | ok ps =>
        rw [h3] at h
        have h' : (firstTold s ps).res = .ok x := h
        rw [out_bind_ok (a := ps) rfl, out_bind_ok (a := ()) rfl]
        unfold firstTold at h' ⊢
        cases h4 : describedParts (nth ps 0) with
        | ok qs =>
          rw [h4] at h'
          have hq := described_some h4
          have h'' : (told s (.mk .described qs) .described).res = .ok x := by
            rw [hq] at h'
            exact h'
          rw [out_bind_ok (a := qs) rfl]
          simp only [hq]
          rw [told, if_neg (by simp), if_neg (by simp), if_pos rfl] at h'' ⊢
          rw [out_bind_ok (a := ()) rfl, out_bind_ok (a := ()) rfl]
          cases h5 : textOf (nth qs 0) with
          | ok d =>
            rw [out_bind_ok (a := d) rfl, out_bind_ok (a := ()) rfl]
            exact ⟨d, _, rfl⟩
          | throw m => rw [h5] at h''; cases h''
          | ub m => rw [h5] at h''; cases h''
        | throw m => rw [h4] at h'; cases h'
        | ub m => rw [h4] at h'; cases h'
      | throw m => rw [h3] at h; cases h
      | ub m => rw [h3] at h; cases h
    · rw [if_neg h2] at h
      cases h
  · rw [if_neg h1] at h
    cases h

/-- **C97, never alone.** Whenever the data dumper succeeds, four lines at least come before the dump: standard output as a whole is never
the dump and a line end. -/
theorem C97_never_alone (f : Files) (sys : System) (hs : FilesFit sys) (args : List Str) (out : Str)
    (h : dataDumper sys args = .exit 0 out) :
    (∃ d rest, (dataDumperOutput f sys args).2 = [listLine (sources f) ++ "\n".toList, describedLine (sources f) ++ "\n".toList,
      "STRING\n".toList, nameLine (sources f) d ++ "\n".toList] ++ rest ++ [out]) ∧ (dataDumperOutput f sys args).2.flatten ≠ out := by
  obtain ⟨path, n, s, rfl, hb, hd, rfl⟩ := (C68_data_dumper sys hs args out).mp h
  have ht : dataText (some n) = .ok s := by
    rw [C85_data] at hd
    exact hd
  have hr : (dataTold (sources f) (some n)).res = .ok s := (C97_trace f (Cursor.root n)).2.trans ht
  obtain ⟨d, l, ho⟩ := told_begins hr
  have hp := printed_blob f hs hb
  rw [ht, ho] at hp
  refine ⟨⟨d, l, hp⟩, fun he => ?_⟩
  have hl := congrArg List.length he
  rw [hp] at hl
  simp [stringLine] at hl
  omega

private theorem short_file {b : List Byte} (h : b.length < 8) (x : CordaBytes) : CordaBytes.load {} (some b) ≠ .ok x := by
  have hd : b.drop 7 = [] := List.drop_eq_nil_of_le (by omega)
  have hh : AMQP_HEADERS[({} : AMQPConfig).header]? = some magic := by decide
  unfold CordaBytes.load
  simp only [hh, readInto, hd]
  split <;> simp

/-- **C97, before the blob is read.** When the arguments, the file, its header or its encoding are refused, nothing is printed. -/
theorem C97_refused (f : Files) (sys : System) (hs : FilesFit sys) (args : List Str)
    (h : ∀ path payload, args = [path] → sys.file path ≠ some (magic ++ 0 :: payload)) : (dataDumperOutput f sys args).2 = [] := by
  unfold dataDumperOutput
  split
  · rename_i path
    cases hf : sys.file path with
    | none => rfl
    | some b =>
      simp only
      unfold loadAndPrint
      rw [hf]
      cases hl : CordaBytes.load {} (some b) with
      | ok cb =>
        simp only
        by_cases h0 : cb.encoding = 0
        · exfalso
          by_cases h8 : 8 ≤ b.length
          · have hb : b = b.take 7 ++ b[7]'(by omega) :: b.drop 8 := by
              have h1 : b.take 7 ++ b.drop 7 = b := List.take_append_drop 7 b
              rw [List.drop_eq_getElem_cons (by omega : 7 < b.length)] at h1
              exact h1.symm
            have hlen : (b.take 7).length = 7 := by simp; omega
            generalize b.take 7 = hdr at hb hlen
            generalize b[7]'(by omega) = e at hb
            generalize b.drop 8 = rest at hb
            subst hb
            rw [load_eq {} default_valid hdr hlen e rest (hs _ _ hf)] at hl
            simp only [Bool.false_eq_true, false_or] at hl
            by_cases hh : hdr = magic
            · rw [if_pos hh] at hl
              subst hh
              by_cases he : e.toNat ≤ 2
              · rw [if_pos he] at hl
                simp only [Res.ok.injEq] at hl
                subst hl
                simp only at h0
                subst h0
                exact h path rest rfl hf
              · rw [if_neg he] at hl
                split at hl <;> cases hl
            · rw [if_neg hh] at hl
              cases hl
          · exact short_file (by omega) cb hl
        · rw [if_neg h0]
      | throw m => rfl
      | ub m => rfl
  · rfl

/-! ### Payloads without maps -/

mutual

private theorem told_script (s : Sources) : ∀ r : Raw, Mapless r → ∃ x, told s (rawTree r) (rawTree r).val.type = ⟨.ok x, script s r⟩
  | .leaf n, h => by
    obtain ⟨a, ks⟩ := n
    rw [Mapless] at h
    obtain ⟨h1, h2, h3⟩ := h
    refine ⟨leafText a, ?_⟩
    rw [rawTree, script, told, if_neg h1, if_neg h2, if_neg h3]
    rfl
  | .list es, h => by
    rw [Mapless] at h
    obtain ⟨xs, hx⟩ := told_scripts s es h
    refine ⟨brackets (elements xs), ?_⟩
    rw [rawTree, script]
    show told s (.mk .list (rawTrees es)) .list = _
    rw [told, if_pos rfl, if_pos (by rfl), hx]
    simp [Told.bind_def, Told.line, pure]
  | .map es, h => by
    rw [Mapless] at h
    subst h
    refine ⟨brackets ["<<<Empty Map>>>".toList], ?_⟩
    rw [rawTree, script, rawTrees]
    show told s (.mk .map []) .map = _
    rw [told, if_neg (by simp), if_pos rfl, if_pos (by rfl), slippedTold, if_pos rfl]
    rfl
  | .describedList d es, h => by
    rw [Mapless] at h
    obtain ⟨xs, hx⟩ := told_scripts s es h
    refine ⟨colon d (brackets (elements xs)), ?_⟩
    rw [rawTree, script]
    show told s (.mk .described [.mk (.symbol d) [], .mk .list (rawTrees es)]) .described = _
    rw [told, if_neg (by simp), if_neg (by simp), if_pos rfl]
    have h0 : textOf (nth [Node.mk (.symbol d) [], .mk .list (rawTrees es)] 0) = .ok d := rfl
    have h1 : typeHere (nth [Node.mk (.symbol d) [], .mk .list (rawTrees es)] 1) = .list := rfl
    have h2 : tellAt (toldParts s [Node.mk (.symbol d) [], .mk .list (rawTrees es)]) 1 .list = told s (.mk .list (rawTrees es)) .list := by
      simp only [toldParts]
      rfl
    simp only [h0, h1, h2, true_or, if_true]
    rw [told, if_pos rfl, if_pos (by rfl), hx]
    simp [Told.bind_def, Told.line, Told.silent, pure]
  | .describedMap d es, h => by
    rw [Mapless] at h
    subst h
    refine ⟨colon d (brackets ["<<<Empty Map>>>".toList]), ?_⟩
    rw [rawTree, script, rawTrees]
    show told s (.mk .described [.mk (.symbol d) [], .mk .map []]) .described = _
    rw [told, if_neg (by simp), if_neg (by simp), if_pos rfl]
    have h0 : textOf (nth [Node.mk (.symbol d) [], .mk .map []] 0) = .ok d := rfl
    have h1 : typeHere (nth [Node.mk (.symbol d) [], .mk .map []] 1) = .map := rfl
    have h2 : tellAt (toldParts s [Node.mk (.symbol d) [], .mk .map []]) 1 .map = told s (.mk .map []) .map := by
      simp only [toldParts]
      rfl
    simp only [h0, h1, h2, or_true, if_true]
    rw [told, if_neg (by simp), if_pos rfl, if_pos (by rfl), slippedTold, if_pos rfl]
    rfl

private theorem told_scripts (s : Sources) : ∀ es : List Raw, MaplessAll es → ∃ xs, Told.all (toldAll s (rawTrees es)) = ⟨.ok xs, scripts s es⟩
  | [], _ => ⟨[], by rw [rawTrees, toldAll, scripts]; rfl⟩
  | e :: es, h => by
    rw [MaplessAll] at h
    obtain ⟨x, hx⟩ := told_script s e h.1
    obtain ⟨xs, hxs⟩ := told_scripts s es h.2
    refine ⟨x :: xs, ?_⟩
    rw [rawTrees, toldAll, scripts, Told.all, hx, hxs]
    simp [Told.bind_def, pure]

end

/-- The payload is described. -/
def IsDescribed : Raw → Prop
  | .describedList _ _ => True
  | .describedMap _ _ => True
  | _ => False

private theorem described_type {r : Raw} (h : IsDescribed r) : (rawTree r).val = .described := by
  cases r <;> first | exact False.elim h | (rw [rawTree]; rfl)

private theorem dataTold_envelope (s : Sources) {p st tr : Node} (hp : p.val = .described) :
    (dataTold s (some (envelopeTree p st tr))).out = (listLine s ++ "\n".toList) :: (told s p .described).out := by
  show (dataTold s (some (.mk .described [.mk (.ulong (cordaId 1)) [], .mk .list [p, st, tr]]))).out = _
  unfold dataTold
  rw [if_pos (by rfl), if_pos (by show cordaId 1 % 2 ^ 32 = 1; decide +kernel)]
  have h1 : listParts (nth (kidsOf (some (.mk .described [.mk (.ulong (cordaId 1)) [], .mk .list [p, st, tr]]))) 1) = .ok [p, st, tr] := rfl
  rw [h1, out_bind_ok (a := [p, st, tr]) rfl, out_bind_ok (a := ()) rfl]
  obtain ⟨a, ks⟩ := p
  simp only [Node.val] at hp
  subst hp
  rfl

/-- **C97, the script.** When the payload of the blob has no entries in maps, the data dumper prints a line for the list of the envelope, the
lines of `script` for the payload, and the dump: a line for every list and three for every described value, in the order in which they
come in the payload. -/
theorem C97_script (f : Files) (sys : System) (hs : FilesFit sys) (path : Str) (r : Raw) (st tr : Node) (hd : IsDescribed r)
    (hm : Mapless r) (h : HoldsBlob sys path (envelopeTree (rawTree r) st tr)) :
    ∃ s, dataDumper sys [path] = .exit 0 (s ++ "\n".toList) ∧ (dataDumperOutput f sys [path]).2 =
      (listLine (sources f) ++ "\n".toList) :: script (sources f) r ++ [s ++ "\n".toList] := by
  have hv := described_type hd
  obtain ⟨x, hx⟩ := told_script (sources f) r hm
  rw [hv] at hx
  have hx' : told (sources f) (rawTree r) .described = ⟨.ok x, script (sources f) r⟩ := hx
  have ho := dataTold_envelope (sources f) (st := st) (tr := tr) hv
  rw [hx'] at ho
  have hr : dataText (some (envelopeTree (rawTree r) st tr)) = .ok x := by
    have := (C97_trace f (Cursor.root (envelopeTree (rawTree r) st tr))).2
    rw [show (Cursor.root (envelopeTree (rawTree r) st tr)).cur = some (envelopeTree (rawTree r) st tr) from rfl] at this
    rw [← this]
    show (dataTold (sources f) (some (.mk .described [.mk (.ulong (cordaId 1)) [], .mk .list [rawTree r, st, tr]]))).res = _
    unfold dataTold
    rw [if_pos (by rfl), if_pos (by show cordaId 1 % 2 ^ 32 = 1; decide +kernel)]
    show (firstTold (sources f) [rawTree r, st, tr]).res = _
    unfold firstTold
    have h0 : nth [rawTree r, st, tr] 0 = some (rawTree r) := rfl
    have h1 : describedParts (some (rawTree r)) = .ok (rawTree r).kids := by
      unfold describedParts valueOf
      rw [Option.map_some, hv]
      rfl
    simp only [h0, h1, hx']
    rfl
  refine ⟨x, (C68_data_dumper sys hs [path] _).mpr ⟨path, _, x, rfl, h, ?_, rfl⟩, ?_⟩
  · rw [C85_data]
    exact hr
  · rw [printed_blob f hs h, hr, ho]

mutual

private theorem script_outline (s : Sources) : ∀ r : Raw, script s (outline r) = script s r
  | .leaf _ => by rw [outline, script, script]
  | .list es => by rw [outline, script, script, scripts_outline s es]
  | .map _ => by rw [outline, script, script]
  | .describedList d es => by rw [outline, script, script, scripts_outline s es]
  | .describedMap d _ => by rw [outline, script, script]

private theorem scripts_outline (s : Sources) : ∀ es : List Raw, scripts s (outlines es) = scripts s es
  | [] => by rw [outlines]
  | e :: es => by rw [outlines, scripts, scripts, script_outline s e, scripts_outline s es]

end

/-- **C97, values.** The trace of payloads without entries in maps tells nothing about the values in them: two blobs whose payloads differ in
nothing but the values print the same trace. -/
theorem C97_values (f : Files) (c c' : Cursor) (r r' : Raw) (st tr st' tr' : Node) (hd : IsDescribed r) (hm : Mapless r) (hm' : Mapless r')
    (ho : outline r = outline r') (hc : c.cur = some (envelopeTree (rawTree r) st tr))
    (hc' : c'.cur = some (envelopeTree (rawTree r') st' tr')) : (TProg.dumpData f c).2 = (TProg.dumpData f c').2 := by
  have hd' : IsDescribed r' := by
    cases r <;> first | exact False.elim hd | (cases r' <;> first | trivial | (rw [outline, outline] at ho; cases ho))
  have key : ∀ {c : Cursor} {r : Raw} {st tr : Node}, IsDescribed r → Mapless r → c.cur = some (envelopeTree (rawTree r) st tr) →
      (TProg.dumpData f c).2 = (listLine (sources f) ++ "\n".toList) :: script (sources f) r := by
    intro c r st tr hd hm hc
    rw [(C97_trace f c).1, hc]
    have hv := described_type hd
    obtain ⟨x, hx⟩ := told_script (sources f) r hm
    rw [hv] at hx
    have hx' : told (sources f) (rawTree r) .described = ⟨.ok x, script (sources f) r⟩ := hx
    simp only
    rw [dataTold_envelope (sources f) hv, hx']
  rw [key hd hm hc, key hd' hm' hc', ← script_outline _ r, ho, script_outline _ r']

/-! ### Examples -/

private def exampleFiles : Files := ⟨"AMQPBlob.cxx".toList, "proton_wrapper.cxx".toList⟩

/-- A described pair of a number and a list. -/
private def pairBlob : Node :=
  envelopeTree (described "net.corda:pair".toList (.mk .list [.mk (.int 7) [], .mk .list []])) (.mk .null []) (.mk .null [])

private def pairSystem : System :=
  { file := fun _ => some (magic ++ 0 :: [1, 2, 3]), decode := fun b => some (b.length, pairBlob) }

/-- All of the standard output for it. -/
example : (dataDumperOutput exampleFiles pairSystem ["blob".toList]).2.flatten =
    ("[proton_wrapper.cxx::299] YEP! it's a list\n[AMQPBlob.cxx::212] dumpDescribed\nSTRING\n" ++
     "[AMQPBlob.cxx::217]   FINGERPRINT: net.corda:pair\n[proton_wrapper.cxx::299] YEP! it's a list\n" ++
     "[proton_wrapper.cxx::299] YEP! it's a list\nnet.corda:pair : [ 7, [ <<<Empty List>>> ] ]\n").toList := by decide +kernel

/-- **C97, an example**: a blob that can be dumped, and something else on standard output than the dump. -/
theorem C97_not_only_the_dump : ∃ f sys args out, FilesFit sys ∧ dataDumper sys args = .exit 0 out ∧
    (dataDumperOutput f sys args).2.flatten ≠ out := by
  have hs : FilesFit pairSystem := by
    intro p b h
    have : b = magic ++ 0 :: [1, 2, 3] := by simpa [pairSystem] using h.symm
    subst this
    decide
  refine ⟨exampleFiles, pairSystem, ["blob".toList], "net.corda:pair : [ 7, [ <<<Empty List>>> ] ]\n".toList, hs, ?_, ?_⟩
  · decide +kernel
  · decide +kernel

/-- A map from something described to a list with one string. -/
private def leaky (secret : Str) : Raw :=
  .describedMap "m".toList [.describedList "k".toList [], .list [.leaf (.mk (.string secret) [])]]

private def leakyBlob (secret : Str) : Node := envelopeTree (rawTree (leaky secret)) (.mk .null []) (.mk .null [])

/-- **C97, values in maps**: with maps the trace does show values.  The value of an entry is taken for what its key is, here something
described, and its first string is printed as a descriptor.  The dump itself fails. -/
theorem C97_values_in_maps : ∃ (f : Files) (r r' : Raw) (st tr : Node), outline r = outline r' ∧ IsDescribed r ∧
    (TProg.dumpData f (Cursor.root (envelopeTree (rawTree r) st tr))).2 ≠ (TProg.dumpData f (Cursor.root (envelopeTree (rawTree r') st tr))).2 :=
  ⟨exampleFiles, leaky "secret".toList, leaky "other".toList, .mk .null [], .mk .null [], rfl, trivial, by decide +kernel⟩

/-- What it looks like. -/
example : TProg.dumpData exampleFiles (Cursor.root (leakyBlob "secret".toList)) |>.2.getLast? =
    some "[AMQPBlob.cxx::217]   FINGERPRINT: secret\n".toList := by decide +kernel

/-- A failing dump has printed its trace. -/
example : (TProg.dumpData exampleFiles (Cursor.root (leakyBlob "secret".toList))).1.1 =
    .throw "Described data must be either a list or map" := by decide +kernel

#print axioms C97_trace
#print axioms C97_end
#print axioms C97_output
#print axioms C97_never_alone
#print axioms C97_refused
#print axioms C97_script
#print axioms C97_values
#print axioms C97_not_only_the_dump
#print axioms C97_values_in_maps

end Corda.Props
