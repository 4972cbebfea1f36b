import Verif.Props.SchemaTrace
import Verif.Props.Tools
import Verif.Props.Avro
import Verif.Lemmas.Accepted

/-
C99: the standard output of the schema dumper as a whole.
-/

namespace Corda.Props
open Corda Prog Spec

/-! ### The tool -/

private theorem loadAndTell_end (f : SchemaFiles) (t : DumpTarget) (sys : System) (path : Str) :
    (loadAndTell f t sys path).1 = loadAndDump {} sys path fun c => (Prog.dumpSchema t c).1 := by
  unfold loadAndTell loadAndDump
  cases CordaBytes.load {} (sys.file path) with
  | ok cb =>
    simp only [Res.bind_eq, Res.bind]
    split
    · cases AMQPBlob.make sys cb with
      | ok c =>
        have h := TProg.erase_dumpSchema f t c
        simp only
        rw [← h]
        rcases TProg.dumpSchema f t c with ⟨⟨r, c'⟩, o⟩
        cases r <;> rfl
      | throw m => rfl
      | ub m => rfl
    · rfl
  | throw m => rfl
  | ub m => rfl

/-- **C99, the end.** The trace changes nothing about how the schema dumper ends. -/
theorem C99_end (f : SchemaFiles) (sys : System) (args : List Str) : (schemaDumperOutput f sys args).1 = schemaDumper sys args := by
  unfold schemaDumperOutput schemaDumper
  match args with
  | [] => rfl
  | [_] => rfl
  | [path, flag] =>
    simp only
    cases sys.file path with
    | none => rfl
    | some b =>
      simp only [loadAndTell_end]
      by_cases h : flag = "avro".toList
      · rw [if_pos h, if_pos h]
      · rw [if_neg h, if_neg h]
        by_cases h' : flag = "raw".toList
        · rw [if_pos h', if_pos h']
        · rw [if_neg h', if_neg h']
  | _ :: _ :: _ :: _ => rfl

private theorem flag_target {flag : Str} {t : DumpTarget} (hm : modeOf flag t) (f : SchemaFiles) (sys : System) (path : Str) (b : List Byte)
    (hf : sys.file path = some b) : (schemaDumperOutput f sys [path, flag]).2 = (loadAndTell f t sys path).2 := by
  unfold schemaDumperOutput
  simp only [hf]
  rcases hm with ⟨rfl, rfl⟩ | ⟨rfl, rfl⟩
  · rw [if_pos rfl]
  · rw [if_neg (by decide), if_pos rfl]

private theorem said_blob (f : SchemaFiles) {sys : System} (hs : FilesFit sys) {path flag : Str} {t : DumpTarget} (hm : modeOf flag t) {n : Node}
    (h : HoldsBlob sys path n) : (schemaDumperOutput f sys [path, flag]).2 = (TProg.dumpSchema f t (Cursor.root n)).2 ++
      (match (Prog.dumpSchema t (Cursor.root n)).1 with | .ok s => [s ++ "\n".toList] | _ => []) := by
  obtain ⟨payload, hf, hd⟩ := h
  rw [flag_target hm f sys path _ hf]
  unfold loadAndTell
  have hl : CordaBytes.load {} (sys.file path) = .ok ⟨0, payload.length, payload⟩ := by
    rw [hf, load_eq {} default_valid magic magic_length 0 payload (hs _ _ hf)]
    simp
  have hk : AMQPBlob.make sys ⟨0, payload.length, payload⟩ = .ok (Cursor.root n) := by
    unfold AMQPBlob.make
    simp only [hd, if_true]
  rw [hl]
  simp only [if_true, hk]
  rw [← TProg.erase_dumpSchema f t (Cursor.root n)]
  rcases TProg.dumpSchema f t (Cursor.root n) with ⟨⟨r, c'⟩, o⟩
  cases r <;> simp [nl]

/-- **C99, the output, raw.** What the schema dumper prints when given a file with a blob and `raw`: the trace, and if there is a dump, the dump
and a line end after it. -/
theorem C99_raw_output (f : SchemaFiles) (sys : System) (hs : FilesFit sys) (path : Str) (n : Node) (h : HoldsBlob sys path n) :
    (schemaDumperOutput f sys [path, "raw".toList]).2.flatten = (rawSaid (speakers f) n).out.flatten ++
      (match rawDump n with | .ok s => s ++ "\n".toList | _ => []) := by
  have hc : (Cursor.root n).cur = some n := rfl
  rw [said_blob f hs (t := .raw) (.inr ⟨rfl, rfl⟩) h, List.flatten_append, (C99_raw f _ n hc).2, C90_any _ n hc]
  cases rawDump n <;> simp

/-- **C99, the output, Avro.** The same for `avro`. -/
theorem C99_avro_output (f : SchemaFiles) (sys : System) (hs : FilesFit sys) (path : Str) (n : Node) (h : HoldsBlob sys path n)
    (hn : SmallTexts n) :
    (schemaDumperOutput f sys [path, "avro".toList]).2.flatten = (avroSaid (speakers f) n).out.flatten ++
      (match avroDump n with | .ok s => s ++ "\n".toList | _ => []) := by
  have hc : (Cursor.root n).cur = some n := rfl
  rw [said_blob f hs (t := .avro) (.inl ⟨rfl, rfl⟩) h, List.flatten_append, (C99_avro f _ n hc hn).2, C91_any _ n hc hn]
  cases avroDump n <;> simp

/-! ### Nothing but the dump -/

private theorem height_pos (n : Node) : ∃ h, n.height = h + 1 := by
  cases n; exact ⟨_, rfl⟩

private theorem avro_begins (f : SchemaFiles) (n : Node) (hv : n.val.type = .described) :
    ∃ l, (TProg.dumpSchema f .avro (Cursor.root n)).2 = (descriptorLine (speakers f) ++ "\n".toList) :: l := by
  obtain ⟨h, hh⟩ := height_pos n
  have hc : (Cursor.root n).cur = some n := rfl
  rw [C99_start f .avro _ n hc, if_pos hv, hh]
  exact C99_avro_first f h [] _

/-- **C99, the Avro form never comes alone.** Whenever the schema dumper succeeds with `avro`, the line `readAvro::Descriptor` comes before the dump: standard output
as a whole is never the dump and a line end. -/
theorem C99_avro_never_alone (f : SchemaFiles) (sys : System) (hs : FilesFit sys) (path out : Str)
    (h : schemaDumper sys [path, "avro".toList] = .exit 0 out) :
    (∃ rest, (schemaDumperOutput f sys [path, "avro".toList]).2 = (descriptorLine (speakers f) ++ "\n".toList) :: rest ++ [out])
      ∧ (schemaDumperOutput f sys [path, "avro".toList]).2.flatten ≠ out := by
  obtain ⟨path', flag, t, n, s, ha, hm, hb, hd, rfl⟩ := (C68_schema_dumper sys hs _ out).mp h
  simp only [List.cons.injEq, and_true] at ha
  obtain ⟨rfl, rfl⟩ := ha
  have ht : t = .avro := by
    rcases hm with ⟨-, rfl⟩ | ⟨h, -⟩
    · rfl
    · exact absurd h (by decide)
  subst ht
  have hv : n.val.type = .described := Decidable.byContradiction fun hv => by
    have hc : (Cursor.root n).cur = some n := rfl
    have := TProg.erase_dumpSchema f .avro (Cursor.root n)
    rw [C99_start f .avro _ n hc, if_neg hv] at this
    rw [← this] at hd
    cases hd
  obtain ⟨l, hl⟩ := avro_begins f n hv
  have hp := said_blob f hs hm hb
  rw [hl, hd] at hp
  refine ⟨⟨l, hp⟩, fun he => ?_⟩
  have := congrArg List.length he
  rw [hp] at this
  simp at this
  omega

private theorem unquoted (t : Str) (h : '"' ∉ t) (l : Char) : (Scan.out l).run t = .bad ∨ ∃ l', (Scan.out l).run t = .out l' := by
  induction t generalizing l with
  | nil => exact .inr ⟨l, rfl⟩
  | cons c t ih =>
    have hc : c ≠ '"' := fun e => h (by simp [e])
    have ht : '"' ∉ t := fun e => h (by simp [e])
    rw [run_cons]
    unfold Scan.step
    by_cases h1 : Blank c
    · simp only [if_pos h1]; exact ih ht l
    · simp only [if_neg h1, if_neg hc]
      split
      · split
        · exact .inl (run_bad t)
        · exact ih ht c
      · exact .inl (run_bad t)

/-- What comes behind the name of the source file. -/
private def behind : Str := "::136] readAvro::Descriptor".toList

private theorem behind_bad (l : Char) : (Scan.out l).run behind = .bad := by
  have h1 : (Scan.out l).step ':' = .out ':' := step_open l ':' (by decide)
  show (Scan.out l).run (':' :: ":136] readAvro::Descriptor".toList) = .bad
  rw [run_cons, h1]
  decide

private theorem header_bad (f : SchemaFiles) (h : '"' ∉ f.descriptor) (l : Char) (t : Str) :
    (Scan.out l).run (descriptorLine (speakers f) ++ t) = .bad := by
  have e : descriptorLine (speakers f) = '[' :: (f.descriptor ++ behind) := by
    unfold descriptorLine behind
    simp only [List.append_assoc]; rfl
  rw [e, List.cons_append, run_cons, step_open l '[' (by decide), List.append_assoc, run_append]
  rcases unquoted f.descriptor h '[' with hb | ⟨l', hb⟩
  · rw [hb, run_bad]
  · rw [hb, run_append, behind_bad, run_bad]

/-- **C99, not JSON.** Whatever the blob, and even if the dump alone is JSON, all of the standard output of a successful `schema-dumper file avro` is
not; nor is it with brackets around. -/
theorem C99_avro_never_json_violated (f : SchemaFiles) (hf : '"' ∉ f.descriptor) (sys : System) (hs : FilesFit sys) (path out : Str)
    (h : schemaDumper sys [path, "avro".toList] = .exit 0 out) :
    ¬ IsJson (schemaDumperOutput f sys [path, "avro".toList]).2.flatten
      ∧ ¬ IsJson ("[".toList ++ (schemaDumperOutput f sys [path, "avro".toList]).2.flatten ++ "]".toList) := by
  obtain ⟨⟨rest, hr⟩, -⟩ := C99_avro_never_alone f sys hs path out h
  rw [hr]
  simp only [List.cons_append, List.flatten_cons, List.append_assoc]
  refine ⟨fun hj => isJson_run hj ' ' (header_bad f hf _ _), fun hj => isJson_run hj ' ' ?_⟩
  show (Scan.out ' ').run ('[' :: _) = .bad
  rw [run_cons, step_open ' ' '[' (by decide)]
  exact header_bad f hf _ _

private theorem out_bind_ok {α β : Type} {r : Told α} {a : α} (h : r.res = .ok a) (k : α → Told β) :
    (r >>= k).out = r.out ++ (k a).out := by
  obtain ⟨x, o⟩ := r
  dsimp only at h
  subst h
  rfl

private theorem blob_unique {sys : System} {path : Str} {n m : Node} (h : HoldsBlob sys path n) (h' : HoldsBlob sys path m) : n = m := by
  obtain ⟨p, h1, h2⟩ := h
  obtain ⟨q, h3, h4⟩ := h'
  rw [h1] at h3
  simp only [Option.some.injEq, List.append_cancel_left_eq, List.cons.injEq, true_and] at h3
  subst h3
  rw [h2] at h4
  simpa using h4

/-- **C99, when the raw text comes alone.** When the schema dumper succeeds with `raw`, standard output is the dump and a line end, and nothing else,
exactly if the blob is not an envelope but something with a symbol for its descriptor. -/
theorem C99_raw_alone (f : SchemaFiles) (sys : System) (hs : FilesFit sys) (path out : Str) (n : Node) (hb : HoldsBlob sys path n)
    (h : schemaDumper sys [path, "raw".toList] = .exit 0 out) :
    (schemaDumperOutput f sys [path, "raw".toList]).2.flatten = out ↔ ∃ s, valueOf (nth n.kids 0) = some (.symbol s) := by
  obtain ⟨path', flag, t, m, s, ha, hm, hb', hd, rfl⟩ := (C68_schema_dumper sys hs _ out).mp h
  simp only [List.cons.injEq, and_true] at ha
  obtain ⟨rfl, rfl⟩ := ha
  have ht : t = .raw := by
    rcases hm with ⟨h, -⟩ | ⟨-, rfl⟩
    · exact absurd h (by decide)
    · rfl
  subst ht
  cases blob_unique hb hb'
  have hc : (Cursor.root n).cur = some n := rfl
  rw [C90_any _ n hc] at hd
  rw [C99_raw_output f sys hs path n hb, hd]
  have key : (rawSaid (speakers f) n).out.flatten = [] ↔ ∃ s, valueOf (nth n.kids 0) = some (.symbol s) := by
    obtain ⟨k, hk⟩ := height_pos n
    unfold rawDump at hd
    unfold rawSaid
    cases hv : n.val with
    | described =>
      rw [hv] at hd
      dsimp only at hd ⊢
      rw [hk] at hd ⊢
      unfold linesIn at hd
      unfold saidIn
      dsimp only [kidsOf] at hd ⊢
      cases ha : valueOf (nth n.kids 0) with
      | none => rw [ha] at hd; cases hd
      | some a =>
        rw [ha] at hd
        cases a with
        | ulong id =>
          dsimp only at hd ⊢
          cases hl : listParts (nth n.kids 1) with
          | ok ps =>
            rw [out_bind_ok (a := ()) rfl, out_bind_ok (a := ()) rfl]
            simp [Told.line, quietly, Told.silent, Res.map_eq]
          | throw m => rw [hl] at hd; cases hd
          | ub m => rw [hl] at hd; cases hd
        | symbol s => exact ⟨fun _ => ⟨s, rfl⟩, fun _ => rfl⟩
        | _ => cases hd
    | _ => rw [hv] at hd; cases hd
  rw [← key]
  constructor
  · intro h
    exact List.append_left_eq_self.mp h
  · intro h
    rw [h]; rfl

/-! ### The lines there are -/

private def Out (P : Str → Prop) {α : Type} (r : Told α) : Prop := ∀ l ∈ r.out, P l

section
variable {P : Str → Prop}

private theorem out_bind {α β : Type} {r : Told α} {k : α → Told β} (h : Out P r) (h' : ∀ a, Out P (k a)) : Out P (r >>= k) := by
  obtain ⟨x, o⟩ := r
  rw [Told.bind_def]
  cases x with
  | ok a =>
    intro l hl
    simp only [List.mem_append] at hl
    rcases hl with hl | hl
    · exact h l hl
    · exact h' a l hl
  | throw m => exact h
  | ub m => exact h

private theorem out_quiet {α : Type} (r : Res α) : Out P (quietly r) := by intro l hl; cases hl
private theorem out_silent {α : Type} (r : Res α) : Out P (Told.silent r) := by intro l hl; cases hl
private theorem out_line {s : Str} (h : P (s ++ "\n".toList)) : Out P (Told.line s) := by
  intro l hl
  have : l = s ++ "\n".toList := by simpa [Told.line] using hl
  rw [this]; exact h
private theorem out_pure {α : Type} (a : α) : Out P (pure a : Told α) := by intro l hl; cases hl

private theorem out_each {f : Saying} (h : ∀ n, Out P (f n)) (n : Option Node) : Out P (eachSaid f n) := by
  unfold eachSaid
  induction kidsOf n with
  | nil => exact out_pure _
  | cons m ms ih => exact out_bind (h _) fun _ => ih

private theorem out_element {f : Saying} (h : ∀ n, Out P (f n)) (n : Option Node) : Out P (elementSaid f n) := by
  unfold elementSaid
  split
  · exact h n
  · exact out_silent _

private theorem out_ite {α : Type} {b : Prop} [Decidable b] {x y : Told α} (h : Out P x) (h' : Out P y) : Out P (if b then x else y) := by
  split
  · exact h
  · exact h'

end

private theorem out_said (s : Speakers) (depth : Nat) : ∀ n, Out (fun l => l = yepOut s ∨ l = textOut) (saidIn s depth n) := by
  have hy : Out (fun l => l = yepOut s ∨ l = textOut) (Told.line (yepLine s)) := out_line (.inl rfl)
  have ht : Out (fun l => l = yepOut s ∨ l = textOut) (Told.line textLine) := out_line (.inr rfl)
  induction depth with
  | zero => exact fun _ => out_silent _
  | succ d ih =>
    have he := out_element ih
    intro n
    unfold saidIn
    split
    · refine out_bind (out_quiet _) fun _ => out_bind hy fun _ => ?_
      unfold insideSaid
      refine out_ite (out_bind hy fun _ => out_bind (he _) fun _ => he _) (out_ite (out_bind hy fun _ => ?_)
        (out_ite (out_bind hy fun _ => out_quiet _) (out_ite (out_bind hy fun _ => out_quiet _) (out_ite (out_bind hy fun _ => ?_)
        (out_ite (out_bind hy fun _ => ?_) (out_ite (ih _) (out_silent _)))))))
      · exact out_each (fun m => out_bind (out_quiet _) fun _ => out_bind hy fun _ => out_each he _) _
      · exact out_bind ht fun _ => out_bind (out_quiet _) fun _ => out_bind ht fun _ => out_bind (out_quiet _) fun _ =>
          out_bind (out_quiet _) fun _ => out_bind hy fun _ => out_bind (out_quiet _) fun _ => out_bind (out_quiet _) fun _ =>
          out_bind (ih _) fun _ => out_each he _
      · exact out_bind ht fun _ => out_bind (out_quiet _) fun _ => out_bind ht fun _ => out_bind (out_quiet _) fun _ =>
          out_bind (out_quiet _) fun _ => out_bind ht fun _ => out_bind (out_quiet _) fun _ => he _
    · exact out_pure _
    · exact out_silent _

/-- The lines there are. -/
def traceLines (s : Speakers) : List Str :=
  [yepOut s, textOut, lineOut (descriptorLine s), lineOut (envelopeLine s), lineOut (schemaLine s), lineOut (compositeLine s),
    lineOut (objectLine s)]

private theorem out_avro (s : Speakers) (depth : Nat) : ∀ n, Out (· ∈ traceLines s) (avroSaidIn s depth n) := by
  have line : ∀ l, lineOut l ∈ traceLines s → Out (· ∈ traceLines s) (Told.line l) := fun l h => out_line h
  have hy := line (yepLine s) (.head _)
  have ht := line textLine (.tail _ (.head _))
  induction depth with
  | zero => exact fun _ => out_silent _
  | succ d ih =>
    have he := out_element ih
    intro n
    unfold avroSaidIn
    refine out_bind (line _ (by simp [traceLines])) fun _ => ?_
    split
    · refine out_bind (out_quiet _) fun _ => out_bind hy fun _ => ?_
      unfold insideAvroSaid
      refine out_ite (out_bind (line _ (by simp [traceLines])) fun _ => out_bind hy fun _ => he _)
        (out_ite (out_bind (line _ (by simp [traceLines])) fun _ => out_bind hy fun _ => out_ite (out_each he _) (out_silent _))
        (out_ite (out_bind (line _ (by simp [traceLines])) fun _ => out_bind hy fun _ => out_quiet _)
        (out_ite (out_bind hy fun _ => out_quiet _) (out_ite (out_bind (line _ (by simp [traceLines])) fun _ => out_bind hy fun _ => ?_)
        (out_ite (out_pure _) (out_ite (ih _) (out_silent _)))))))
      exact out_bind ht fun _ => out_bind (out_quiet _) fun _ => out_bind (out_quiet _) fun _ => out_bind (out_quiet _) fun _ =>
        out_bind hy fun _ => out_bind (out_quiet _) fun _ => out_bind (ih _) fun _ => out_each he _
    · exact out_pure _
    · exact out_silent _

/-- **C99, what the trace can say.** Every line of the trace of the raw text is one of two, whatever the blob; nothing of what is in the blob is in
them. -/
theorem C99_raw_lines (s : Speakers) (n : Node) : ∀ l ∈ (rawSaid s n).out, l = yepOut s ∨ l = textOut := by
  unfold rawSaid
  split
  · exact out_said s _ _
  · exact out_silent (P := fun l => l = yepOut s ∨ l = textOut) _

/-- **C99, what the trace can say, Avro.** Every line is one of seven. -/
theorem C99_avro_lines (s : Speakers) (n : Node) : ∀ l ∈ (avroSaid s n).out, l ∈ traceLines s := by
  unfold avroSaid
  split
  · exact out_avro s _ _
  · exact out_silent (P := (· ∈ traceLines s)) _

/-! ### Schemas as Corda writes them -/

/-- If all goes well, this is what is printed. -/
private def When (r : Told Unit) (l : List Str) : Prop := r.res = .ok () → r.out = l

private theorem when_bind {r : Told Unit} {k : Unit → Told Unit} {a b : List Str} (h : When r a) (h' : When (k ()) b) :
    When (r >>= k) (a ++ b) := by
  obtain ⟨x, o⟩ := r
  rw [Told.bind_def]
  cases x with
  | ok u =>
    intro hr
    have h1 : o = a := h rfl
    have h2 : (k ()).out = b := h' hr
    show o ++ (k ()).out = a ++ b
    rw [h1, h2]
  | throw m => intro hr; cases hr
  | ub m => intro hr; cases hr

private theorem when_quiet {α : Type} (r : Res α) : When (quietly r) [] := fun _ => rfl
private theorem when_line (s : Str) : When (Told.line s) [lineOut s] := fun _ => rfl
private theorem when_pure : When (pure ()) [] := fun _ => rfl

private theorem when_then {α : Type} {r : Res α} {k : Unit → Told Unit} {l : List Str} (h : When (k ()) l) : When (quietly r >>= k) l :=
  when_bind (when_quiet r) h
private theorem when_say {s : Str} {k : Unit → Told Unit} {l : List Str} (h : When (k ()) l) : When (Told.line s >>= k) (lineOut s :: l) :=
  when_bind (when_line s) h

private theorem when_each {α : Type} {f : Saying} {node : α → Node} {g : α → List Str} {xs : List α} (h : ∀ x, When (f (some (node x))) (g x))
    (n : Node) (hn : n.kids = xs.map node) : When (eachSaid f (some n)) (xs.flatMap g) := by
  unfold eachSaid
  show When (inTurn (n.kids.map _)) _
  rw [hn]
  clear hn
  induction xs with
  | nil => exact when_pure
  | cons x xs ih => exact when_bind (h x) ih

/-- Elements. -/
private theorem when_said {s : Speakers} {d k : Nat} {parts : List Node} {l : List Str}
    (h : When (insideSaid s (saidIn s d) (cordaId k) (some (.mk .list parts))) l) :
    When (saidIn s (d + 1) (some (element k parts))) (yepOut s :: l) := by
  show When (do
    quietly (listParts (some (.mk .list parts)))
    Told.line (yepLine s)
    insideSaid s (saidIn s d) (cordaId k) (some (.mk .list parts))) _
  exact when_then (when_say h)

private theorem when_avroSaid {s : Speakers} {d k : Nat} {parts : List Node} {l : List Str}
    (h : When (insideAvroSaid s (avroSaidIn s d) (cordaId k) (some (.mk .list parts))) l) :
    When (avroSaidIn s (d + 1) (some (element k parts))) (lineOut (descriptorLine s) :: yepOut s :: l) := by
  show When (do
    Told.line (descriptorLine s)
    quietly (listParts (some (.mk .list parts)))
    Told.line (yepLine s)
    insideAvroSaid s (avroSaidIn s d) (cordaId k) (some (.mk .list parts))) _
  exact when_say (when_then (when_say h))

private theorem ids : cordaId 2 ≠ cordaId 1 ∧ cordaId 3 ≠ cordaId 1 ∧ cordaId 3 ≠ cordaId 2 ∧ cordaId 4 ≠ cordaId 1 ∧ cordaId 4 ≠ cordaId 2
    ∧ cordaId 4 ≠ cordaId 3 ∧ cordaId 5 ≠ cordaId 1 ∧ cordaId 5 ≠ cordaId 2 ∧ cordaId 5 ≠ cordaId 3 ∧ cordaId 5 ≠ cordaId 4
    ∧ cordaId 6 ≠ cordaId 1 ∧ cordaId 6 ≠ cordaId 2 ∧ cordaId 6 ≠ cordaId 3 ∧ cordaId 6 ≠ cordaId 4 ∧ cordaId 6 ≠ cordaId 5 := by
  decide +kernel

private theorem raw_object (s : Speakers) (d : Nat) (fp : Str) : When (saidIn s (d + 1) (some (objectTree fp))) [yepOut s, yepOut s] := by
  refine when_said (k := 3) (l := [yepOut s]) ?_
  unfold insideSaid
  rw [if_neg ids.2.1, if_neg ids.2.2.1, if_pos rfl]
  exact when_say (when_quiet _)

private theorem raw_field (s : Speakers) (d : Nat) (f : FieldInfo) : When (elementSaid (saidIn s (d + 1)) (some f.node)) [yepOut s, yepOut s] := by
  refine when_said (k := 4) (l := [yepOut s]) ?_
  unfold insideSaid
  rw [if_neg ids.2.2.2.1, if_neg ids.2.2.2.2.1, if_neg ids.2.2.2.2.2.1, if_pos rfl]
  exact when_say (when_quiet _)

private theorem pairs {α : Type} (s : Str) (xs : List α) : (xs.flatMap fun _ => [s, s]) = List.replicate (2 * xs.length) s := by
  induction xs with
  | nil => rfl
  | cons x xs ih =>
    rw [List.flatMap_cons, ih, List.length_cons, show 2 * (xs.length + 1) = 2 * xs.length + 1 + 1 by omega]
    rfl

private theorem raw_type (s : Speakers) (d : Nat) (t : TypeInfo) :
    When (elementSaid (saidIn s (d + 2)) (some t.node)) (rawTypeScript s t) := by
  obtain ⟨-, -, -, -, -, -, a1, a2, a3, a4, b1, b2, b3, b4, b5⟩ := ids
  cases t with
  | composite name label provides fp fields =>
    refine when_said (k := 5) (l := [yepOut s, textOut, textOut, yepOut s, yepOut s, yepOut s] ++ List.replicate (2 * fields.length) (yepOut s)) ?_
    unfold insideSaid
    rw [if_neg a1, if_neg a2, if_neg a3, if_neg a4, if_pos rfl, ← pairs]
    exact when_say (when_say (when_then (when_say (when_then (when_then (when_say (when_then (when_then (when_bind (raw_object s d fp)
      (when_each (raw_field s d) _ rfl))))))))))
  | restricted name label provides source fp choices =>
    refine when_said (k := 6) (l := [yepOut s, textOut, textOut, textOut, yepOut s, yepOut s]) ?_
    unfold insideSaid
    rw [if_neg b1, if_neg b2, if_neg b3, if_neg b4, if_neg b5, if_pos rfl]
    exact when_say (when_say (when_then (when_say (when_then (when_then (when_say (when_then (raw_object s d fp))))))))

private theorem raw_envelope (s : Speakers) (d : Nat) (fp : Str) (payload : List Node) (lists : List (List TypeInfo)) (more : List Node) :
    When (saidIn s (d + 4) (some (envelopeNode fp payload lists more))) (rawScript s lists) := by
  refine when_said (k := 1) (l := [yepOut s, yepOut s, yepOut s] ++ lists.flatMap fun ts => yepOut s :: ts.flatMap (rawTypeScript s)) ?_
  unfold insideSaid
  rw [if_pos rfl]
  have h : When (elementSaid (saidIn s (d + 3)) (some (.mk .described (sym fp :: payload)))) [] := fun _ => rfl
  refine when_say (l := [yepOut s, yepOut s] ++ _) (when_bind (b := [yepOut s, yepOut s] ++ _) h ?_)
  refine when_said (k := 2) (l := [yepOut s] ++ _) ?_
  unfold insideSaid
  rw [if_neg ids.1, if_pos rfl]
  refine when_say (when_each (fun ts => ?_) _ rfl)
  exact when_then (when_say (when_each (raw_type s d) _ rfl))

private theorem envelope_height (fp : Str) (payload : List Node) (lists : List (List TypeInfo)) (more : List Node) :
    ∃ d, (envelopeNode fp payload lists more).height = d + 4 := by
  have h1 : 4 ≤ (envelopeNode fp payload lists more).height := by
    have key : ∀ (n m : Node), m ∈ n.kids → m.height + 1 ≤ n.height := fun n m h => height_kid h
    have e1 := key (envelopeNode fp payload lists more) _ (.tail _ (.head _))
    have e2 := key (.mk .list (.mk .described (sym fp :: payload) :: schemaNode lists :: more)) (schemaNode lists) (.tail _ (.head _))
    have e3 := key (schemaNode lists) _ (.tail _ (.head _))
    obtain ⟨k, hk⟩ := height_pos (.mk .list (lists.map fun ts => .mk .list (ts.map TypeInfo.node)))
    omega
  exact ⟨_, (Nat.sub_add_cancel h1).symm⟩

/-- **C99, the script of the raw text.** For an envelope as Corda writes it, with any schema: four lines, one for each list of types, seven for each type and two for each
field. -/
theorem C99_raw_script (f : SchemaFiles) (sys : System) (hs : FilesFit sys) (path fp : Str) (payload : List Node) (lists : List (List TypeInfo))
    (more : List Node) (h : HoldsBlob sys path (envelopeNode fp payload lists more)) :
    (schemaDumperOutput f sys [path, "raw".toList]).2 =
      rawScript (speakers f) lists ++ [page (envelopeLines fp lists (2 + more.length)) ++ "\n".toList] := by
  have hc : (Cursor.root (envelopeNode fp payload lists more)).cur = some (envelopeNode fp payload lists more) := rfl
  have hd := C60_raw_text fp payload lists more _ hc
  rw [said_blob f hs (t := .raw) (.inr ⟨rfl, rfl⟩) h, hd, (C99_raw f _ _ hc).2]
  refine congrArg (· ++ [page (envelopeLines fp lists (2 + more.length)) ++ "\n".toList]) ?_
  obtain ⟨d, hh⟩ := envelope_height fp payload lists more
  have hr := C99_raw_result f _ _ hc
  have hw := raw_envelope (speakers f) d fp payload lists more
  rw [← hh] at hw
  refine hw ?_
  show (rawSaid (speakers f) (envelopeNode fp payload lists more)).res = .ok ()
  rw [← hr, hd]
  rfl

private theorem avro_object (s : Speakers) (d : Nat) (fp : Str) :
    When (avroSaidIn s (d + 1) (some (objectTree fp))) [lineOut (descriptorLine s), yepOut s, lineOut (objectLine s), yepOut s] := by
  refine when_avroSaid (k := 3) (l := [lineOut (objectLine s), yepOut s]) ?_
  unfold insideAvroSaid
  rw [if_neg ids.2.1, if_neg ids.2.2.1, if_pos rfl]
  exact when_say (when_say (when_quiet _))

private theorem avro_field (s : Speakers) (d : Nat) (f : FieldInfo) :
    When (elementSaid (avroSaidIn s (d + 1)) (some f.node)) (avroFieldScript s) := by
  refine when_avroSaid (k := 4) (l := [yepOut s]) ?_
  unfold insideAvroSaid
  rw [if_neg ids.2.2.2.1, if_neg ids.2.2.2.2.1, if_neg ids.2.2.2.2.2.1, if_pos rfl]
  exact when_say (when_quiet _)

private theorem copies {α β : Type} (l : List β) (xs : List α) : (xs.flatMap fun _ => l) = (List.replicate xs.length l).flatten := by
  induction xs with
  | nil => rfl
  | cons x xs ih => rw [List.flatMap_cons, ih, List.length_cons, List.replicate_succ, List.flatten_cons]

private theorem avro_type (s : Speakers) (d : Nat) (t : TypeInfo) :
    When (elementSaid (avroSaidIn s (d + 2)) (some t.node)) (avroTypeScript s t) := by
  obtain ⟨-, -, -, -, -, -, a1, a2, a3, a4, b1, b2, b3, b4, b5⟩ := ids
  cases t with
  | composite name label provides fp fields =>
    refine when_avroSaid (k := 5) (l := [lineOut (compositeLine s), yepOut s, textOut, yepOut s,
      lineOut (descriptorLine s), yepOut s, lineOut (objectLine s), yepOut s] ++ (List.replicate fields.length (avroFieldScript s)).flatten) ?_
    unfold insideAvroSaid
    rw [if_neg a1, if_neg a2, if_neg a3, if_neg a4, if_pos rfl, ← copies]
    exact when_say (when_say (when_say (when_then (when_then (when_then (when_say (when_then (when_bind (avro_object s d fp)
      (when_each (avro_field s d) _ rfl)))))))))
  | restricted name label provides source fp choices =>
    refine when_avroSaid (k := 6) (l := []) ?_
    unfold insideAvroSaid
    rw [if_neg b1, if_neg b2, if_neg b3, if_neg b4, if_neg b5, if_pos rfl]
    exact when_pure

private theorem avro_envelope (s : Speakers) (d : Nat) (fp : Str) (payload : List Node) (lists : List (List TypeInfo)) (more : List Node) :
    When (avroSaidIn s (d + 4) (some (envelopeNode fp payload lists more))) (avroScript s lists.flatten) := by
  refine when_avroSaid (k := 1) (l := [lineOut (envelopeLine s), yepOut s, lineOut (descriptorLine s), yepOut s, lineOut (schemaLine s), yepOut s]
    ++ lists.flatten.flatMap (avroTypeScript s)) ?_
  unfold insideAvroSaid
  rw [if_pos rfl]
  refine when_say (when_say (l := [lineOut (descriptorLine s), yepOut s, lineOut (schemaLine s), yepOut s] ++ _) ?_)
  refine when_avroSaid (k := 2) (l := [lineOut (schemaLine s), yepOut s] ++ _) ?_
  unfold insideAvroSaid
  rw [if_neg ids.1, if_pos rfl]
  refine when_say (when_say ?_)
  by_cases hl : (kidsOf (some (.mk .list (lists.map fun ts => Node.mk .list (ts.map TypeInfo.node))))).length = 1
  · rw [if_pos hl]
    match lists, hl with
    | [ts], _ =>
      rw [show [ts].flatten = ts by simp]
      exact when_each (avro_type s d) _ rfl
  · rw [if_neg hl]
    intro h
    cases h

/-- **C99, the script of the Avro form.** For an envelope as Corda writes it, if it can be dumped at all: eight lines, ten for each class and three for each
of its fields, two for each restricted type. -/
theorem C99_avro_script (f : SchemaFiles) (sys : System) (hs : FilesFit sys) (path fp : Str) (payload : List Node) (lists : List (List TypeInfo))
    (more : List Node) (h : HoldsBlob sys path (envelopeNode fp payload lists more)) (hn : SmallTexts (envelopeNode fp payload lists more))
    (out : Str) (hd : schemaDumper sys [path, "avro".toList] = .exit 0 out) :
    (schemaDumperOutput f sys [path, "avro".toList]).2 = avroScript (speakers f) lists.flatten ++ [out] := by
  have hc : (Cursor.root (envelopeNode fp payload lists more)).cur = some (envelopeNode fp payload lists more) := rfl
  obtain ⟨path', flag, t, m, x, ha, hm, hb', hx, rfl⟩ := (C68_schema_dumper sys hs _ out).mp hd
  simp only [List.cons.injEq, and_true] at ha
  obtain ⟨rfl, rfl⟩ := ha
  have ht : t = .avro := by
    rcases hm with ⟨-, rfl⟩ | ⟨h, -⟩
    · rfl
    · exact absurd h (by decide)
  subst ht
  cases blob_unique h hb'
  rw [said_blob f hs hm h, hx, (C99_avro f _ _ hc hn).2]
  refine congrArg (· ++ [x ++ ['\n']]) ?_
  obtain ⟨d, hh⟩ := envelope_height fp payload lists more
  have hr := C99_avro_result f _ _ hc hn
  have hw := avro_envelope (speakers f) d fp payload lists more
  rw [← hh] at hw
  refine hw ?_
  show (avroSaid (speakers f) (envelopeNode fp payload lists more)).res = .ok ()
  rw [← hr, hx]
  rfl

/-! ### Before the blob is read -/

private theorem short_file {b : List Byte} (h : b.length < 8) (x : CordaBytes) : CordaBytes.load {} (some b) ≠ .ok x := by
  have hd : b.drop 7 = [] := List.drop_eq_nil_of_le (by omega)
  have hh : AMQP_HEADERS[({} : AMQPConfig).header]? = some magic := by decide
  unfold CordaBytes.load
  simp only [hh, readInto, hd]
  split <;> simp

private theorem loaded {sys : System} (hs : FilesFit sys) {path : Str} {b : List Byte} (hf : sys.file path = some b) {cb : CordaBytes}
    (hl : CordaBytes.load {} (some b) = .ok cb) (h0 : cb.encoding = 0) : ∃ payload, b = magic ++ 0 :: payload := by
  by_cases h8 : 8 ≤ b.length
  · have hb : b = b.take 7 ++ b[7]'(by omega) :: b.drop 8 := by
      have h1 : b.take 7 ++ b.drop 7 = b := List.take_append_drop 7 b
      rw [List.drop_eq_getElem_cons (by omega : 7 < b.length)] at h1
      exact h1.symm
    have hlen : (b.take 7).length = 7 := by simp; omega
    generalize b.take 7 = hdr at hb hlen
    generalize b[7]'(by omega) = e at hb
    generalize b.drop 8 = rest at hb
    subst hb
    rw [load_eq {} default_valid hdr hlen e rest (hs _ _ hf)] at hl
    simp only [Bool.false_eq_true, false_or] at hl
    by_cases hh : hdr = magic
    · rw [if_pos hh] at hl
      subst hh
      by_cases he : e.toNat ≤ 2
      · rw [if_pos he] at hl
        simp only [Res.ok.injEq] at hl
        subst hl
        simp only at h0
        subst h0
        exact ⟨rest, rfl⟩
      · rw [if_neg he] at hl
        split at hl <;> cases hl
    · rw [if_neg hh] at hl
      cases hl
  · exact absurd hl (short_file (by omega) cb)

/-- **C99, before the blob is read.** When the arguments, the mode, the file, its header or its encoding are refused, nothing is printed. -/
theorem C99_refused (f : SchemaFiles) (sys : System) (hs : FilesFit sys) (args : List Str)
    (h : ∀ path flag t payload, args = [path, flag] → modeOf flag t → sys.file path ≠ some (magic ++ 0 :: payload)) :
    (schemaDumperOutput f sys args).2 = [] := by
  have key : ∀ path flag t b, args = [path, flag] → modeOf flag t → sys.file path = some b → (loadAndTell f t sys path).2 = [] := by
    intro path flag t b ha hm hf
    unfold loadAndTell
    rw [hf]
    cases hl : CordaBytes.load {} (some b) with
    | ok cb =>
      simp only
      by_cases h0 : cb.encoding = 0
      · obtain ⟨payload, rfl⟩ := loaded hs hf hl h0
        exact absurd hf (h path flag t payload ha hm)
      · rw [if_neg h0]
    | throw m => rfl
    | ub m => rfl
  unfold schemaDumperOutput
  split
  · rename_i path flag
    cases hf : sys.file path with
    | none => rfl
    | some b =>
      simp only
      by_cases h1 : flag = "avro".toList
      · rw [if_pos h1]
        exact key path flag .avro b rfl (.inl ⟨h1, rfl⟩) hf
      · rw [if_neg h1]
        by_cases h2 : flag = "raw".toList
        · rw [if_pos h2]
          exact key path flag .raw b rfl (.inr ⟨h2, rfl⟩) hf
        · rw [if_neg h2]
  · rfl

/-! ### Examples -/

private def exampleFiles : SchemaFiles :=
  ⟨"proton_wrapper.cxx".toList, "AMQPDescriptor.cxx".toList, "EnvelopeDescriptor.cxx".toList, "SchemaDescriptor.cxx".toList,
    "CompositeDescriptor.cxx".toList, "ObjectDescriptor.cxx".toList⟩

/-- A class with one number. -/
private def countClass : TypeInfo :=
  .composite "net.Count".toList none [] "f1".toList [⟨"n".toList, "int".toList, [], none, none, true, false⟩]

private def countSystem : System :=
  { file := fun _ => some (magic ++ 0 :: [1, 2, 3])
    decode := fun b => some (b.length, envelopeNode "f1".toList [.mk .list [.mk (.int 7) []]] [[countClass]] [.mk .null []]) }

private theorem count_fits : FilesFit countSystem := by
  intro p b h
  have : b = magic ++ 0 :: [1, 2, 3] := by simpa [countSystem] using h.symm
  subst this
  decide

/-- A test for trees of a certain height. -/
private def smallWithin : Nat → Node → Bool
  | 0, _ => false
  | d + 1, n =>
    (match n.val with
    | .string s => decide (s.length < 2 ^ 63)
    | .symbol s => decide (s.length < 2 ^ 63)
    | _ => true) && n.kids.all (smallWithin d)

private theorem small_within : ∀ d n, smallWithin d n = true → SmallTexts n
  | 0, _, h => by cases h
  | d + 1, n, h => by
    unfold smallWithin at h
    rw [Bool.and_eq_true] at h
    obtain ⟨h1, h2⟩ := h
    intro m hm s hs
    cases hm with
    | self =>
      rcases hs with hs | hs <;> rw [hs] at h1 <;> unfold Str.Small <;> exact of_decide_eq_true h1
    | part hk hm => exact small_within d _ (List.all_eq_true.mp h2 _ hk) m hm s hs

private theorem count_small : SmallTexts (envelopeNode "f1".toList [.mk .list [.mk (.int 7) []]] [[countClass]] [.mk .null []]) :=
  small_within 20 _ (by decide +kernel)

/-- All of the standard output for `avro`. -/
example : (schemaDumperOutput exampleFiles countSystem ["blob".toList, "avro".toList]).2.flatten =
    ("[AMQPDescriptor.cxx::136] readAvro::Descriptor\n[proton_wrapper.cxx::299] YEP! it's a list\n".toList ++
     "[EnvelopeDescriptor.cxx::76] readAvro::Envelope\n[proton_wrapper.cxx::299] YEP! it's a list\n".toList ++
     "[AMQPDescriptor.cxx::136] readAvro::Descriptor\n[proton_wrapper.cxx::299] YEP! it's a list\n".toList ++
     "[SchemaDescriptor.cxx::108] readAvro::Schema\n[proton_wrapper.cxx::299] YEP! it's a list\n".toList ++
     "[AMQPDescriptor.cxx::136] readAvro::Descriptor\n[proton_wrapper.cxx::299] YEP! it's a list\n".toList ++
     "[CompositeDescriptor.cxx::165] readAvro::Composite\n[proton_wrapper.cxx::299] YEP! it's a list\n".toList ++
     "STRING\n[proton_wrapper.cxx::299] YEP! it's a list\n".toList ++
     "[AMQPDescriptor.cxx::136] readAvro::Descriptor\n[proton_wrapper.cxx::299] YEP! it's a list\n".toList ++
     "[ObjectDescriptor.cxx::77] readAvro::Object\n[proton_wrapper.cxx::299] YEP! it's a list\n".toList ++
     "[AMQPDescriptor.cxx::136] readAvro::Descriptor\n[proton_wrapper.cxx::299] YEP! it's a list\n[proton_wrapper.cxx::299] YEP! it's a list\n".toList ++
     "{\n  \"type\" : \"record\",\n  \"name\" : \"Count\",\n  \"namespace\" : \"net\",\n  \"aliases\" : [ \"f1\" ],\n".toList ++
     "  \"fields\" : [\n    {\n      \"name\" : \"n\", \n      \"type\" : \"int\"\n    }\n  ]\n}\n\n".toList) := by
  rw [C99_avro_output exampleFiles countSystem count_fits _ _ ⟨[1, 2, 3], rfl, rfl⟩ count_small]
  decide +kernel

/-- A raw dump: five lines of trace for the envelope, seven for the class, two for the field, and the dump. -/
example : (schemaDumperOutput exampleFiles countSystem ["blob".toList, "raw".toList]).2.length = 15 := by decide +kernel

/-- **C99, an example**: a blob whose schema can be dumped in the Avro form, which is JSON, and standard output that is not. -/
theorem C99_not_json_violated : ∃ f sys path t, FilesFit sys ∧ schemaDumper sys [path, "avro".toList] = .exit 0 t ∧ IsJson t ∧
    ¬ IsJson (schemaDumperOutput f sys [path, "avro".toList]).2.flatten := by
  have hi : Says countClass (.record "net.Count".toList "f1".toList [("n".toList, .leaf "int".toList)]) :=
    .composite (shapes := [.leaf "int".toList]) rfl
      (by simpa using ⟨.inr (by decide), leaf_ok (by decide) (by decide) (by decide) (by decide) (by decide) (by decide),
        by unfold Str.Small; decide⟩)
      (by unfold Str.Small; decide)
  obtain ⟨x, hx, hj⟩ := C64_one_class_partial "f1".toList [.mk .list [.mk (.int 7) []]] countClass "net.Count".toList "f1".toList
    [("n".toList, .leaf "int".toList)] [.mk .null []] (Cursor.root _) hi rfl
    ⟨by unfold Quotable; decide, by unfold Quotable; decide, by
      simpa using ⟨by unfold Quotable; decide, by unfold AvroShape.Named Quotable NeedsQuotes; decide⟩⟩
    (by unfold AvroType.Simple; decide)
  have hd : schemaDumper countSystem ["blob".toList, "avro".toList] = .exit 0 (x ++ ['\n']) :=
    (C68_schema_dumper countSystem count_fits _ _).mpr ⟨_, _, .avro, _, x, rfl, .inl ⟨rfl, rfl⟩, ⟨[1, 2, 3], rfl, rfl⟩, hx, rfl⟩
  exact ⟨exampleFiles, countSystem, "blob".toList, _, count_fits, hd, ⟨_, .after '\n' (by decide) hj⟩,
    (C99_avro_never_json_violated exampleFiles (by decide) _ count_fits _ _ hd).1⟩

/-- A blob that is no envelope: only the dump is printed. -/
example : (schemaDumperOutput exampleFiles { countSystem with decode := fun b => some (b.length, described "x".toList (.mk .list [])) }
    ["blob".toList, "raw".toList]) = (.exit 0 "DESCRIBED: \n  blob: bytes: 1\n\n".toList, ["DESCRIBED: \n  blob: bytes: 1\n\n".toList]) := by decide +kernel

#print axioms C99_raw_element
#print axioms C99_avro_element
#print axioms C99_avro_first
#print axioms C99_start
#print axioms C99_raw
#print axioms C99_avro
#print axioms C99_raw_result
#print axioms C99_avro_result
#print axioms C99_end
#print axioms C99_raw_output
#print axioms C99_avro_output
#print axioms C99_avro_never_alone
#print axioms C99_avro_never_json_violated
#print axioms C99_raw_alone
#print axioms C99_raw_lines
#print axioms C99_avro_lines
#print axioms C99_raw_script
#print axioms C99_avro_script
#print axioms C99_refused
#print axioms C99_not_json_violated

end Corda.Props
