import Verif.Lemmas.Writer
import Verif.Lemmas.Readers
import Verif.Spec.WriteTrace

/-
Serialising with the prints: taking them away gives the functions of Model/Writer, and what is printed is the script.
-/

namespace Corda
open Spec

namespace TWr

/-! ### Taking the prints away -/

/-- The step without its prints. -/
def erase (p : TWr) : Wr := fun s => (p s).1

theorem erase_quiet (p : Wr) : erase (quiet p) = p := rfl

theorem erase_say (out : List Str) : erase (say out) = Wr.skip := rfl

theorem erase_seq (p q : TWr) : erase (seq p q) = Wr.seq (erase p) (erase q) := by
  funext s
  unfold erase seq Wr.seq
  rcases h : p s with ⟨⟨_ | _ | _, s'⟩, o⟩ <;> simp only [h]

theorem skip_seq (p : Wr) : Wr.seq Wr.skip p = p := rfl

theorem erase_dbg (w : Compiled) (file : WSrc) (line : Nat) (text : Str) : erase (dbg w file line text) = Wr.skip := rfl

theorem erase_guarded (start body : TWr) (stop : Cursor → Cursor) (farewell : Str) :
    erase (guarded start body stop farewell) = Wr.guarded (erase start) (erase body) stop := by
  funext s
  unfold erase guarded Wr.guarded
  rcases h : start s with ⟨⟨_ | _ | _, s'⟩, o⟩ <;> simp only [h]

theorem erase_startSerializable (w : Compiled) (fp : Str) : erase (startSerializable w fp) = Wr.startSerializable fp := by
  unfold startSerializable
  rw [erase_seq, erase_dbg, erase_quiet, skip_seq]

theorem erase_startComposite (w : Compiled) (key : Str × Str) : erase (startComposite w key) = Wr.startComposite key := by
  unfold startComposite Wr.startComposite
  rw [erase_seq, erase_dbg, skip_seq, erase_seq, erase_quiet, erase_seq, erase_startSerializable, erase_quiet]

theorem erase_startRestricted (w : Compiled) (key : Str × Str) (b : Bool) : erase (startRestricted w key b) = Wr.startRestricted key b := by
  unfold startRestricted Wr.startRestricted
  rw [erase_seq, erase_dbg, skip_seq, erase_seq, erase_quiet, erase_seq, erase_startSerializable, erase_quiet]

theorem erase_property (w : Compiled) (key : Str × Str) (name : Str) (desc : List Node) :
    erase (property w key name desc) = Wr.property key name desc := rfl

theorem erase_trace (w : Compiled) (prints : Bool) (line : Nat) (text : Str) : erase (trace w prints line text) = Wr.trace prints := rfl

theorem erase_writeComposite (w : Compiled) (key : Str × Str) (n t : Str) :
    erase (writeComposite w key n t) = Wr.property key n (Wr.compositeDesc n t) := by
  unfold writeComposite
  rw [erase_seq, erase_dbg, skip_seq, erase_property]

theorem erase_writeRestricted (w : Compiled) (key : Str × Str) (n t : Str) :
    erase (writeRestricted w key n t) = Wr.property key n (Wr.restrictedDesc n t) := by
  unfold writeRestricted
  rw [erase_seq, erase_dbg, skip_seq, erase_property]

theorem erase_writePrimitive (w : Compiled) (key : Str × Str) (n : Str) (t : PrimType) (ptr prints : Bool) (shown : Str) (v : Atom) :
    erase (writePrimitive w key n t ptr prints shown v)
      = Wr.seq (Wr.trace prints) (Wr.seq (Wr.property key n (Wr.primDesc n t ptr)) (Wr.data (Cursor.put v))) := by
  unfold writePrimitive
  rw [erase_seq, erase_trace, erase_seq, erase_property, erase_seq, erase_dbg, skip_seq, erase_quiet]

theorem erase_writeNull (w : Compiled) (key : Str × Str) (n t : Str) :
    erase (writeNull w key n t) = Wr.seq (Wr.property key n (Wr.nullDesc n t)) (Wr.data (Cursor.put .null)) := by
  unfold writeNull
  rw [erase_seq, erase_dbg, skip_seq, erase_seq, erase_seq, erase_dbg, skip_seq, erase_quiet]
  rfl

theorem erase_nonPrimWriter (w : Compiled) (key : Str × Str) (m : Member) (n t : Str) (ptr : Bool) (o : Obj) :
    erase (nonPrimWriter w key m n t ptr o)
      = Wr.property key n (if !ptr && o.isContainer then Wr.restrictedDesc n t else Wr.compositeDesc n t) := by
  cases o with
  | comp => simp only [nonPrimWriter, Obj.isContainer, Bool.and_false, erase_writeComposite]; rfl
  | list => cases ptr <;> simp [nonPrimWriter, Obj.isContainer, erase_writeComposite, erase_seq, erase_dbg, skip_seq, erase_writeRestricted]
  | map => cases ptr <;> simp [nonPrimWriter, Obj.isContainer, erase_writeComposite, erase_writeRestricted]

theorem seq_trace_true (p : Wr) : Wr.seq (Wr.trace true) p = p := rfl

mutual

theorem erase_object (w : Compiled) (b : Bool) : (o : Obj) → erase (object w b o) = Wr.object o
  | .comp n f ms => by
    rw [object, Wr.object, erase_seq, erase_guarded, erase_startComposite, erase_seq, erase_say, skip_seq, erase_members w (n, f) ms]
    cases b <;> rfl
  | .list n f es => by
    rw [object, Wr.object, erase_seq, erase_dbg, skip_seq, erase_guarded, erase_startRestricted, erase_elems w es]
  | .map n f es => by
    rw [object, Wr.object, erase_seq, erase_dbg, skip_seq, erase_guarded, erase_startRestricted, erase_entries w es]

theorem erase_members (w : Compiled) (key : Str × Str) : (ms : List Member) → erase (members w key ms) = Wr.members key ms
  | [] => by rw [members, Wr.members, erase_say]
  | m :: ms => by rw [members, Wr.members, erase_seq, erase_member w key m, erase_members w key ms]

theorem erase_member (w : Compiled) (key : Str × Str) : (m : Member) → erase (member w key m) = Wr.member key m
  | .prim n ptr v => by rw [member, Wr.member, erase_writePrimitive]
  | .nullPrim n t => by rw [member, Wr.member, erase_writePrimitive]
  | .obj n t ptr o => by
    rw [member, Wr.member, erase_seq, erase_say, skip_seq, erase_seq, erase_nonPrimWriter, erase_object w false o]
  | .nullObj n t => by
    rw [member, Wr.member, erase_seq, erase_say, skip_seq, erase_seq, erase_writeComposite, erase_writeNull]

theorem erase_elems (w : Compiled) : (es : List Elem) → erase (elems w es) = Wr.elems es
  | [] => by rw [elems, Wr.elems, erase_say]
  | e :: es => by rw [elems, Wr.elems, erase_seq, erase_elem w e, erase_elems w es]

theorem erase_elem (w : Compiled) : (e : Elem) → erase (elem w e) = Wr.elem e
  | .prim v => by
    rw [elem, Wr.elem, erase_seq, erase_say, skip_seq, writePrimitiveSingle, erase_seq, erase_trace, seq_trace_true, erase_quiet]
  | .nullPrim t => by
    rw [elem, Wr.elem, erase_seq, erase_say, skip_seq, writePrimitiveSingle, erase_seq, erase_trace, erase_quiet]
  | .obj o => by rw [elem, Wr.elem, erase_seq, erase_say, skip_seq, erase_object w false o]

theorem erase_entries (w : Compiled) : (es : List Entry) → erase (entries w es) = Wr.entries es
  | [] => by rw [entries, Wr.entries, erase_say]
  | .mk k v :: es => by
    rw [entries, Wr.entries, erase_seq, entry, Wr.entry, erase_seq, erase_say, skip_seq, erase_seq, erase_elem w k, erase_elem w v,
      erase_entries w es]

end

end TWr

/-! ### What is printed -/

theorem met_append (a b : List Uttered) : met (a ++ b) = met a ++ met b := by
  induction a with
  | nil => rfl
  | cons x a ih => cases x <;> simp [met, ih]

/-- Only which properties have been met matters. -/
theorem spoken_congr {seen seen' : List ((Str × Str) × Str)} (h : ∀ x, x ∈ seen ↔ x ∈ seen') (r : List Uttered) :
    spoken seen r = spoken seen' r := by
  induction r generalizing seen seen' with
  | nil => rfl
  | cons x r ih =>
    cases x with
    | always t => simp only [spoken]; rw [ih h]
    | first k n t =>
      simp only [spoken]
      by_cases hm : (k, n) ∈ seen
      · rw [if_pos hm, if_pos ((h _).1 hm), ih h]
      · rw [if_neg hm, if_neg (fun hc => hm ((h _).2 hc))]
        rw [ih (seen' := (k, n) :: seen') (by intro x; simp only [List.mem_cons, h x])]

theorem spoken_append (seen : List ((Str × Str) × Str)) (a b : List Uttered) :
    spoken seen (a ++ b) = spoken seen a ++ spoken (met a ++ seen) b := by
  induction a generalizing seen with
  | nil => rfl
  | cons x a ih =>
    cases x with
    | always t => simp only [List.cons_append, spoken, met, ih]
    | first k n t =>
      simp only [List.cons_append, spoken, met]
      by_cases hm : (k, n) ∈ seen
      · rw [if_pos hm, if_pos hm, ih]
        congr 1
        apply spoken_congr
        intro x
        simp only [List.mem_append, List.mem_cons]
        constructor
        · intro h; exact .inr h
        · rintro (rfl | h)
          · exact .inr hm
          · exact h
      · rw [if_neg hm, if_neg hm, ih, List.cons_append]
        congr 2
        apply spoken_congr
        intro x
        simp only [List.mem_append, List.mem_cons]
        constructor
        · rintro (h | h | h)
          · exact .inr (.inl h)
          · exact .inl h
          · exact .inr (.inr h)
        · rintro (h | h | h)
          · exact .inr (.inl h)
          · exact .inl h
          · exact .inr (.inr h)

theorem spoken_always (seen : List ((Str × Str) × Str)) (l : List Str) : spoken seen (l.map .always) = l := by
  induction l with
  | nil => rfl
  | cons x l ih => simp only [List.map_cons, spoken, ih]

theorem met_always (l : List Str) : met (l.map .always) = [] := by
  induction l with
  | nil => rfl
  | cons x l ih => simpa only [List.map_cons, met] using ih

namespace TWr

/-- There is a description of this property. -/
def Recorded (s : WState) (x : (Str × Str) × Str) : Prop :=
  ∃ fs, s.schemas.lookup x.1 = some (.comp fs) ∧ fs.lookup x.2 ≠ none

/-- The step, if it succeeds, prints the script. -/
def Recites (p : TWr) (r : List Uttered) : Prop :=
  ∀ s s' seen out, (∀ x, x ∈ seen ↔ Recorded s x) → p s = ((.ok (), s'), out) →
    out = spoken seen r ∧ ∀ x, x ∈ met r ++ seen ↔ Recorded s' x

theorem recites_seq {p q : TWr} {a b : List Uttered} (hp : Recites p a) (hq : Recites q b) : Recites (seq p q) (a ++ b) := by
  intro s s' seen out hs h
  unfold seq at h
  rcases hps : p s with ⟨⟨r, s1⟩, o1⟩
  rw [hps] at h
  cases r with
  | ok u =>
    simp only at h
    rcases hqs : q s1 with ⟨⟨r, s2⟩, o2⟩
    rw [hqs] at h
    simp only [Prod.mk.injEq] at h
    obtain ⟨⟨rfl, rfl⟩, rfl⟩ := h
    obtain ⟨h1, h2⟩ := hp s s1 seen o1 hs hps
    obtain ⟨h3, h4⟩ := hq s1 s2 (met a ++ seen) o2 h2 hqs
    refine ⟨?_, ?_⟩
    · rw [spoken_append, h1, h3]
    · intro x
      rw [← h4 x, met_append]
      simp only [List.mem_append]
      constructor
      · rintro ((h | h) | h)
        · exact .inr (.inl h)
        · exact .inl h
        · exact .inr (.inr h)
      · rintro (h | h | h)
        · exact .inl (.inr h)
        · exact .inl (.inl h)
        · exact .inr h
  | throw m => simp at h
  | ub m => simp at h

/-- A step that leaves the descriptions alone. -/
theorem recites_still {p : TWr} {l : List Str} (h : ∀ s s' out, p s = ((.ok (), s'), out) → out = l ∧ s'.schemas = s.schemas) :
    Recites p (l.map .always) := by
  intro s s' seen out hs hp
  obtain ⟨h1, h2⟩ := h s s' out hp
  refine ⟨by rw [spoken_always, h1], ?_⟩
  intro x
  rw [met_always, List.nil_append, hs x]
  unfold Recorded
  rw [h2]

theorem recites_say (l : List Str) : Recites (say l) (l.map .always) := by
  apply recites_still
  intro s s' out h
  simp only [say, Prod.mk.injEq] at h
  obtain ⟨⟨-, rfl⟩, rfl⟩ := h
  exact ⟨rfl, rfl⟩

theorem recites_data (f : Cursor → Cursor) : Recites (quiet (Wr.data f)) [] := by
  apply recites_still (l := [])
  intro s s' out h
  simp only [quiet, Wr.data, Prod.mk.injEq] at h
  obtain ⟨⟨-, rfl⟩, rfl⟩ := h
  exact ⟨rfl, rfl⟩

theorem quiet_seq (p q : Wr) : quiet (Wr.seq p q) = seq (quiet p) (quiet q) := by
  funext s
  unfold quiet Wr.seq seq
  rcases h : p s with ⟨_ | _ | _, s'⟩ <;> simp only [h] <;> rfl

theorem line_eq (f : Str) (n : Nat) (t l : Str) (h : natStr n = l) : traceLine f n t = remark f l t := by
  unfold traceLine remark
  rw [h]
  rfl

theorem recites_dbg (w : Compiled) (file : WSrc) (n : Nat) (l t : Str) (h : natStr n = l) :
    Recites (dbg w file n t) [.always (remark (w.file file) l t)] := by
  unfold dbg
  rw [line_eq _ _ _ _ h]
  exact recites_say [_]

theorem recites_register (key : Str × Str) (b : Blob) (hb : b = .comp [] ∨ ∃ src, b = .list src) :
    Recites (quiet (Wr.register key b)) [] := by
  intro s s' seen out hs h
  unfold quiet Wr.register at h
  cases hk : s.schemas.lookup key with
  | some y =>
    rw [hk] at h
    simp only [Prod.mk.injEq] at h
    obtain ⟨⟨-, rfl⟩, rfl⟩ := h
    exact ⟨rfl, hs⟩
  | none =>
    rw [hk] at h
    simp only [Prod.mk.injEq] at h
    obtain ⟨⟨-, rfl⟩, rfl⟩ := h
    refine ⟨rfl, fun x => ?_⟩
    rw [show met [] ++ seen = seen from rfl, hs x]
    unfold Recorded
    simp only
    rw [lookup_mapPut _ _ _ _ _ hk]
    by_cases hx : x.1 = key
    · rw [if_pos hx, hx, hk]
      constructor
      · rintro ⟨fs, h, -⟩; cases h
      · rintro ⟨fs, h, h'⟩
        rcases hb with rfl | ⟨src, rfl⟩
        · cases h; exact absurd rfl h'
        · cases h
    · rw [if_neg hx]

theorem recites_property (w : Compiled) (key : Str × Str) (name : Str) (desc : List Node) :
    Recites (property w key name desc) [meeting w key name] := by
  intro s s' seen out hs h
  unfold property Wr.property at h
  have hnat : natStr 284 = "284".toList := by decide
  cases hk : s.schemas.lookup key with
  | none => rw [hk] at h; simp at h
  | some y =>
    rw [hk] at h
    cases y with
    | list src => simp at h
    | comp fields =>
      simp only at h
      cases hf : fields.lookup name with
      | some d =>
        rw [hf] at h
        simp only [Prod.mk.injEq] at h
        obtain ⟨⟨-, rfl⟩, rfl⟩ := h
        have hmem : (key, name) ∈ seen := (hs _).2 ⟨fields, hk, by rw [hf]; simp⟩
        refine ⟨by simp only [meeting, spoken, if_pos hmem], fun x => ?_⟩
        rw [← hs x]
        simp only [meeting, met, List.cons_append, List.nil_append, List.mem_cons]
        constructor
        · rintro (rfl | h)
          · exact hmem
          · exact h
        · exact .inr
      | none =>
        rw [hf] at h
        simp only [Prod.mk.injEq] at h
        obtain ⟨⟨-, rfl⟩, rfl⟩ := h
        have hmem : (key, name) ∉ seen := by
          intro hc
          obtain ⟨fs, h1, h2⟩ := (hs _).1 hc
          rw [hk] at h1
          cases h1
          exact h2 hf
        refine ⟨by simp only [meeting, spoken, if_neg hmem]; rw [line_eq _ _ _ _ hnat], fun x => ?_⟩
        simp only [meeting, met, List.cons_append, List.nil_append, List.mem_cons]
        rw [hs x]
        unfold Recorded
        simp only
        rw [lookup_mapSet]
        by_cases hx : x.1 = key
        · rw [if_pos hx, hx, hk]
          simp only [Option.map_some, Option.some.injEq, Blob.comp.injEq]
          constructor
          · rintro (rfl | ⟨fs, rfl, h⟩)
            · refine ⟨_, rfl, ?_⟩
              rw [lookup_mapPut _ _ _ _ _ hf, if_pos rfl]
              simp
            · refine ⟨_, rfl, ?_⟩
              rw [lookup_mapPut _ _ _ _ _ hf]
              split
              · simp
              · exact h
          · rintro ⟨fs, rfl, h⟩
            rw [lookup_mapPut _ _ _ _ _ hf] at h
            by_cases hn : x.2 = name
            · left; exact Prod.ext hx hn
            · rw [if_neg hn] at h
              exact .inr ⟨_, rfl, h⟩
        · rw [if_neg hx]
          constructor
          · rintro (rfl | h)
            · exact absurd rfl hx
            · exact h
          · exact .inr

theorem recites_trace (w : Compiled) (prints : Bool) (n : Nat) (l t : Str) (h : natStr n = l) :
    Recites (trace w prints n t) [.always (remark (w.file .blobHeader) l t)] := by
  apply recites_still (l := [_])
  intro s s' out hp
  unfold trace Wr.trace at hp
  cases prints with
  | true =>
    simp only [if_true, Prod.mk.injEq] at hp
    obtain ⟨⟨-, rfl⟩, rfl⟩ := hp
    exact ⟨by rw [line_eq _ _ _ _ h], rfl⟩
  | false => simp at hp

theorem recites_guarded {start body : TWr} {a b : List Uttered} {stop : Cursor → Cursor} {farewell : Str}
    (hs : Recites start a) (hb : Recites body b) : Recites (guarded start body stop farewell) (a ++ b ++ [.always farewell]) := by
  have hsq := recites_seq (recites_seq hs hb) (recites_say [farewell])
  intro s s' seen out hseen h
  unfold guarded at h
  rcases hps : start s with ⟨⟨r, s1⟩, o1⟩
  rw [hps] at h
  cases r with
  | ok u =>
    simp only at h
    rcases hbs : body s1 with ⟨⟨r, s2⟩, o2⟩
    rw [hbs] at h
    simp only [Prod.mk.injEq] at h
    obtain ⟨⟨rfl, rfl⟩, rfl⟩ := h
    have hrun : seq (seq start body) (say [farewell]) s = ((.ok (), s2), o1 ++ o2 ++ [farewell]) := by
      unfold seq
      rw [hps]
      simp only
      rw [hbs]
      rfl
    obtain ⟨h1, h2⟩ := hsq s s2 seen _ hseen hrun
    exact ⟨h1, fun x => (h2 x).trans Iff.rfl⟩
  | throw m => simp at h
  | ub m => simp at h

theorem recites_startSerializable (w : Compiled) (fp : Str) :
    Recites (startSerializable w fp) [.always (remark (w.file .blob) "39".toList ("  startSerializable: ".toList ++ fp))] := by
  unfold startSerializable Wr.startSerializable
  rw [quiet_seq, quiet_seq]
  exact recites_seq (recites_dbg w .blob 39 "39".toList _ (by decide)) (recites_seq (recites_data _) (recites_seq (recites_data _) (recites_data _)))

theorem recites_startComposite (w : Compiled) (key : Str × Str) :
    Recites (startComposite w key) (opening w "63" "startComposite - " key.1 key.2) := by
  unfold startComposite
  rw [quiet_seq]
  exact recites_seq (recites_dbg w .blob 63 "63".toList _ (by decide)) (recites_seq (recites_register key _ (.inl rfl))
    (recites_seq (recites_startSerializable w key.2) (recites_seq (recites_data _) (recites_data _))))

theorem recites_startRestricted (w : Compiled) (key : Str × Str) (b : Bool) :
    Recites (startRestricted w key b) (opening w "88" "startRestricted - " key.1 key.2) := by
  unfold startRestricted
  rw [quiet_seq]
  exact recites_seq (recites_dbg w .blob 88 "88".toList _ (by decide)) (recites_seq (recites_register key _ (.inr ⟨_, rfl⟩))
    (recites_seq (recites_startSerializable w key.2) (recites_seq (recites_data _) (recites_data _))))

theorem recites_writeComposite (w : Compiled) (key : Str × Str) (n t : Str) :
    Recites (writeComposite w key n t)
      ([.always (remark (w.file .blob) "184".toList ("writeComposite::".toList ++ key.1))] ++ [meeting w key n]) :=
  recites_seq (recites_dbg w .blob 184 "184".toList _ (by decide)) (recites_property w key n _)

theorem recites_writeRestricted (w : Compiled) (key : Str × Str) (n t : Str) :
    Recites (writeRestricted w key n t)
      ([.always (remark (w.file .blob) "211".toList ("writeRestricted::".toList ++ key.1))] ++ [meeting w key n]) :=
  recites_seq (recites_dbg w .blob 211 "211".toList _ (by decide)) (recites_property w key n _)

theorem recites_nonPrimWriter (w : Compiled) (key : Str × Str) (m : Member) (n t : Str) (ptr : Bool) (o : Obj) :
    Recites (nonPrimWriter w key m n t ptr o) (keeping w key.1 m ptr o ++ [meeting w key n]) := by
  cases o with
  | comp => exact recites_writeComposite w key n t
  | list =>
    cases ptr with
    | true => exact recites_writeComposite w key n t
    | false =>
      exact recites_seq (a := [_]) (recites_dbg w .writers 112 "112".toList _ (by decide)) (recites_writeRestricted w key n t)
  | map =>
    cases ptr with
    | true => exact recites_writeComposite w key n t
    | false => exact recites_writeRestricted w key n t

theorem recites_writePrimitive (w : Compiled) (key : Str × Str) (n : Str) (t : PrimType) (ptr prints : Bool) (shown : Str) (v : Atom) :
    Recites (writePrimitive w key n t ptr prints shown v)
      [.always (propertyLine w n shown), meeting w key n, writing w .blobHeader "228"] :=
  recites_seq (a := [_]) (recites_trace w prints 207 "207".toList _ (by decide)) (recites_seq (a := [_]) (recites_property w key n _)
    (recites_seq (a := [_]) (b := []) (recites_dbg w .blobHeader 228 "228".toList _ (by decide)) (recites_data _)))

theorem shown_eq (w : Compiled) (v : Prim) : v.shown w = valueText w v := by
  cases v with
  | int n => exact intStr_eq n
  | long n => exact intStr_eq n
  | bool b => cases b <;> rfl
  | _ => rfl

/-- `writeNull` comes after the description. -/
theorem recites_null (w : Compiled) (key : Str × Str) (n t : Str) :
    Recites (seq (writeComposite w key n t) (writeNull w key n t))
      ([.always (remark (w.file .blob) "184".toList ("writeComposite::".toList ++ key.1)), meeting w key n,
          .always (remark (w.file .blob) "135".toList ("writeNull::".toList ++ n ++ "::0 PARENT: ".toList ++ key.1)), writing w .blob "158"]) := by
  intro s s' seen out hs h
  unfold seq at h
  rcases hps : writeComposite w key n t s with ⟨⟨r, s1⟩, o1⟩
  rw [hps] at h
  obtain _ | _ | _ := r
  · simp only at h
    obtain ⟨h1, h2⟩ := recites_writeComposite w key n t s s1 seen o1 hs hps
    have hrec : Recorded s1 (key, n) := (h2 _).1 (by simp [meeting, met])
    obtain ⟨fs, hk, hf⟩ := hrec
    simp only at hk hf
    have hq : ∀ desc, property w key n desc s1 = ((.ok (), s1), []) := by
      intro desc
      unfold property Wr.property
      rw [hk]
      cases hl : fs.lookup n with
      | none => exact absurd hl hf
      | some d => simp only [hl]
    have hrun : writeNull w key n t s1 = ((.ok (), { s1 with payload := Cursor.put .null s1.payload }),
        [remark (w.file .blob) "135".toList ("writeNull::".toList ++ n ++ "::0 PARENT: ".toList ++ key.1),
         remark (w.file .blob) "158".toList "WRITE IT".toList]) := by
      unfold writeNull
      unfold seq
      simp only [dbg, say, hq, quiet, Wr.data, if_true]
      rw [line_eq _ 135 _ "135".toList (by decide), line_eq _ 158 _ "158".toList (by decide)]
      have e : "writeNull::".toList ++ n ++ "::".toList ++ "0".toList ++ " ".toList ++ "PARENT: ".toList ++ key.1
          = "writeNull::".toList ++ n ++ "::0 PARENT: ".toList ++ key.1 := by
        simp only [List.append_assoc]; rfl
      rw [e]
      rfl
    rw [hrun] at h
    simp only [Prod.mk.injEq] at h
    obtain ⟨⟨-, rfl⟩, rfl⟩ := h
    refine ⟨?_, ?_⟩
    · rw [h1]
      have := spoken_append seen [.always (remark (w.file .blob) "184".toList ("writeComposite::".toList ++ key.1)), meeting w key n]
        [.always (remark (w.file .blob) "135".toList ("writeNull::".toList ++ n ++ "::0 PARENT: ".toList ++ key.1)), writing w .blob "158"]
      rw [List.cons_append, List.cons_append, List.nil_append] at this
      rw [this]
      rfl
    · intro x
      exact h2 x
  · simp at h
  · simp at h

theorem namedAs_eq (t : AskedType) : namedAs t = t.name := by
  induction t with
  | string => unfold namedAs AskedType.name; rfl
  | other n => unfold namedAs AskedType.name; rfl
  | vector t ih => unfold namedAs AskedType.name cppListOpen; rw [ih]; exact congrArg _ (List.singleton_inj.mpr (by decide))
  | map k v hk hv =>
    unfold namedAs AskedType.name cppMapOpen
    rw [hk, hv]
    have c : ",".toList = [','] := by decide
    have g : ">".toList = ['>'] := by decide
    rw [c, g]

theorem inquiry_eq (w : Compiled) : (t : AskedType) → inquiry w t = t.told w
  | .string => rfl
  | .other n => by
    rw [AskedType.told, line_eq _ 125 _ "125".toList (by decide), line_eq _ 138 _ "138".toList (by decide)]
    rfl
  | .vector t => inquiry_eq w t
  | .map k v => by
    have hk := inquiry_eq w k
    have hv := inquiry_eq w v
    unfold inquiry at hk hv ⊢
    rw [AskedType.told, madeOf]
    split <;> rw [List.flatMap_append, hk, hv]

theorem recites_dbgType (w : Compiled) (file : WSrc) (n : Nat) (l b : String) (t : AskedType) (a : String) (h : natStr n = l.toList) :
    Recites (say (dbgType w file n b.toList t a.toList)) (recitalType w file l b t a) := by
  have e : recitalType w file l b t a = (dbgType w file n b.toList t a.toList).map .always := by
    unfold recitalType dbgType
    rw [h, inquiry_eq, namedAs_eq]
    simp only [List.map_append, List.map_cons, List.map_nil, List.cons_append, List.nil_append]
    rfl
  rw [e]
  exact recites_say _

theorem recites_single (w : Compiled) (prints : Bool) (shown : Str) (v : Atom) :
    Recites (writePrimitiveSingle w prints shown v) [.always (elementLine w shown)] :=
  recites_seq (a := [_]) (b := []) (recites_trace w prints 241 "241".toList _ (by decide)) (recites_data _)

/-- Said before an object that is not the outermost one. -/
def greeting (w : Compiled) (outermost : Bool) (o : Obj) : List Uttered :=
  match o with
  | .comp _ _ _ => if outermost then [] else [announced w o]
  | _ => [announced w o]

theorem say_append (a b : List Str) : say (a ++ b) = seq (say a) (say b) := rfl

mutual

theorem recites_object (w : Compiled) (b : Bool) : (o : Obj) → Recites (object w b o) (greeting w b o ++ recital w o)
  | .comp n f ms => by
    rw [object, recital]
    refine recites_seq ?_ ?_
    · cases b with
      | true => exact recites_say []
      | false => exact recites_dbg w .serializable 80 "80".toList _ (by decide)
    · have := recites_guarded (stop := Wr.stop) (farewell := endComposite w n) (recites_startComposite w (n, f))
        (recites_seq (recites_say (w.impl (n, f))) (recites_members w (n, f) ms))
      unfold endComposite at this
      rw [line_eq _ 121 _ "121".toList (by decide)] at this
      unfold endComposite
      rw [line_eq _ 121 _ "121".toList (by decide)]
      exact this
  | .list n f es => by
    rw [object, recital]
    refine recites_seq (recites_dbg w .vector 43 "43".toList _ (by decide)) ?_
    have := recites_guarded (stop := Wr.stop) (farewell := endRestricted w n) (recites_startRestricted w (n, f) false) (recites_elems w es)
    unfold endRestricted at this
    rw [line_eq _ 170 _ "170".toList (by decide)] at this
    unfold endRestricted
    rw [line_eq _ 170 _ "170".toList (by decide)]
    exact this
  | .map n f es => by
    rw [object, recital]
    refine recites_seq (recites_dbg w .map 41 "41".toList _ (by decide)) ?_
    have := recites_guarded (stop := Wr.stop) (farewell := endRestricted w n) (recites_startRestricted w (n, f) true) (recites_entries w es)
    unfold endRestricted at this
    rw [line_eq _ 170 _ "170".toList (by decide)] at this
    unfold endRestricted
    rw [line_eq _ 170 _ "170".toList (by decide)]
    exact this

theorem recites_members (w : Compiled) (key : Str × Str) : (ms : List Member) → Recites (members w key ms) (recitalMembers w key ms)
  | [] => by rw [members, recitalMembers]; exact recites_say []
  | m :: ms => by rw [members, recitalMembers]; exact recites_seq (recites_member w key m) (recites_members w key ms)

theorem recites_member (w : Compiled) (key : Str × Str) : (m : Member) → Recites (member w key m) (recitalMember w key m)
  | .prim n false v => by
    rw [member, recitalMember, ← shown_eq]
    exact recites_writePrimitive w key n _ _ _ _ _
  | .prim n true v => by
    rw [member, recitalMember]
    have e : (if v.type = .char then [] else w.address) = v.pointerShown w := by cases v <;> rfl
    rw [e]
    exact recites_writePrimitive w key n _ _ _ _ _
  | .nullPrim n t => by
    rw [member, recitalMember]
    exact recites_writePrimitive w key n _ _ _ _ _
  | .obj n t ptr o => by
    rw [member, recitalMember, inquiry_eq]
    have h := recites_object w false o
    have e : greeting w false o = [announced w o] := by cases o <;> rfl
    rw [e] at h
    have := recites_seq (recites_say ((w.memberType (.obj n t ptr o)).told w))
      (recites_seq (recites_nonPrimWriter w key (.obj n t ptr o) n t ptr o) h)
    simpa only [List.append_assoc, List.cons_append, List.nil_append] using this
  | .nullObj n t => by
    rw [member, recitalMember, inquiry_eq]
    exact recites_seq (recites_say _) (recites_null w key n t)

theorem recites_elems (w : Compiled) : (es : List Elem) → Recites (elems w es) (recitalElems w es)
  | [] => by rw [elems, recitalElems]; exact recites_say []
  | e :: es => by rw [elems, recitalElems]; exact recites_seq (recites_elem w e) (recites_elems w es)

theorem recites_elem (w : Compiled) : (e : Elem) → Recites (elem w e) (recitalElem w e)
  | .prim v => by
    rw [elem, recitalElem, say_append, ← shown_eq, inquiry_eq, namedAs_eq]
    have := recites_seq (recites_seq (recites_say ((w.elemType (.prim v)).told w))
      (recites_dbg w .writers 44 "44".toList ("  SingleWriter::".toList ++ (w.elemType (.prim v)).name ++ " - primitive".toList) (by decide)))
      (recites_single w true (if w.elemPointer (.prim v) then w.address else v.shown w) v.atom)
    rw [List.append_assoc (((w.elemType (.prim v)).told w).map Uttered.always)] at this
    exact this
  | .nullPrim t => by
    rw [elem, recitalElem, say_append, inquiry_eq, namedAs_eq]
    have := recites_seq (recites_seq (recites_say ((w.elemType (.nullPrim t)).told w))
      (recites_dbg w .writers 44 "44".toList ("  SingleWriter::".toList ++ (w.elemType (.nullPrim t)).name ++ " - primitive".toList) (by decide)))
      (recites_single w t.nullPrints w.null .null)
    rw [List.append_assoc (((w.elemType (.nullPrim t)).told w).map Uttered.always)] at this
    exact this
  | .obj o => by
    rw [elem, recitalElem]
    have h := recites_object w false o
    have e : greeting w false o = [announced w o] := by cases o <;> rfl
    rw [e] at h
    have := recites_seq (recites_dbgType w .writers 60 "60" "  SingleWriter::" (w.elemType (.obj o)) " - serialise" (by decide)) h
    rw [← List.append_assoc] at this
    exact this

theorem recites_entries (w : Compiled) : (es : List Entry) → Recites (entries w es) (recitalEntries w es)
  | [] => by rw [entries, recitalEntries]; exact recites_say []
  | .mk k v :: es => by
    rw [entries, recitalEntries, entry, say_append]
    have := recites_seq (recites_seq (recites_seq (recites_dbgType w .map 45 "45" "  * " (w.elemType k) "" (by decide))
      (recites_dbgType w .map 46 "46" "  * " (w.elemType v) "" (by decide))) (recites_seq (recites_elem w k) (recites_elem w v)))
      (recites_entries w es)
    simp only [← List.append_assoc] at this
    exact this

end

end TWr


/-! ### The whole of it -/

open TWr in
theorem serialiseTold_end (w : Compiled) (o : Obj) : (serialiseTold w o).1 = serialise o := by
  have h := congrFun (erase_object w true o) WState.init
  unfold erase at h
  unfold serialiseTold serialise
  rw [← h]
  rcases hr : object w true o WState.init with ⟨⟨_ | _ | _, s⟩, out⟩ <;> rfl

theorem entry_size (d : ClassDesc) : (ClassDesc.entry d).2.size = match d.body with | .inl ps => ps.length | .inr _ => 0 := by
  obtain ⟨k, b⟩ := d
  cases b with
  | inl ps => simp only [ClassDesc.entry, Blob.size, List.length_map]
  | inr src => rfl

theorem toBlobTold_eq (w : Compiled) (s : WState) (ds : List ClassDesc) (h : s.schemas = ds.map ClassDesc.entry) :
    s.toBlobTold w = closing w ds := by
  unfold WState.toBlobTold closing
  rw [h, List.length_map, List.flatMap_map, TWr.line_eq _ 234 _ "234".toList (by decide), natStr_eq]
  have e : ∀ (f g : ClassDesc → List Str), (∀ d, f d = g d) → ds.flatMap f = ds.flatMap g := fun f g h => by rw [funext h]
  refine congrArg _ (e _ _ fun d => ?_)
  obtain ⟨k, b⟩ := d
  cases b with
  | inl ps =>
    simp only [ClassDesc.entry, Blob.size, Blob.makeTold, List.length_map]
    rw [TWr.line_eq _ 244 _ "244".toList (by decide), TWr.line_eq _ 66 _ "66".toList (by decide),
      TWr.line_eq _ 239 _ "239".toList (by decide), natStr_eq]
  | inr src =>
    simp only [ClassDesc.entry, Blob.size, Blob.makeTold]
    rw [TWr.line_eq _ 244 _ "244".toList (by decide), TWr.line_eq _ 89 _ "89".toList (by decide)]
    have e : "    * ".toList ++ k.1 ++ ": ".toList ++ natStr 0 = "    * ".toList ++ k.1 ++ ": 0".toList := by
      simp only [List.append_assoc]; rfl
    rw [e]

/-- What is left when an object has been written. -/
theorem object_end (w : Compiled) (o : Obj) (ns : List Node) (h : serialise o = .ok ns) :
    ∃ s out ds, TWr.object w true o WState.init = ((.ok (), s), out) ∧ s.schemas = ds.map ClassDesc.entry ∧ Describes o ds := by
  have he := congrFun (TWr.erase_object w true o) WState.init
  unfold TWr.erase at he
  have hd := does_object o WState.init rfl
  rcases tame_object o [] trivial with ⟨m, hm⟩ | hm | hm
  · obtain ⟨ds, hds, hdesc⟩ := schemas_describe o m hm
    have h' : runEvents WState.init.schemas (objEvents o) = .ok m := hm
    rw [h'] at hd
    simp only at hd
    rw [hd] at he
    rcases hr : TWr.object w true o WState.init with ⟨⟨r, s⟩, out⟩
    rw [hr] at he
    simp only [Prod.mk.injEq] at he
    obtain ⟨rfl, rfl⟩ := he
    exact ⟨_, out, ds, rfl, hds, hdesc⟩
  · rcases serialise_eq o with ⟨ds, _, ⟨m, hm'⟩, _⟩ | ⟨_, h2⟩ | ⟨_, h2⟩
    · rw [hm] at hm'; cases hm'
    · rw [h] at h2; cases h2
    · rw [h] at h2; cases h2
  · rcases serialise_eq o with ⟨ds, _, ⟨m, hm'⟩, _⟩ | ⟨_, h2⟩ | ⟨_, h2⟩
    · rw [hm] at hm'; cases hm'
    · rw [h] at h2; cases h2
    · rw [h] at h2; cases h2

theorem serialiseTold_transcript (w : Compiled) (o : Obj) (ns : List Node) (h : serialise o = .ok ns) :
    ∃ ds, Describes o ds ∧ (serialiseTold w o).2 = spoken [] (TWr.greeting w true o ++ recital w o) ++ closing w ds := by
  obtain ⟨s, out, ds, hr, hs, hds⟩ := object_end w o ns h
  refine ⟨ds, hds, ?_⟩
  have h0 : ∀ x, x ∈ ([] : List ((Str × Str) × Str)) ↔ TWr.Recorded WState.init x := by
    intro x
    constructor
    · intro h; cases h
    · rintro ⟨fs, h, -⟩; cases h
  obtain ⟨h1, -⟩ := TWr.recites_object w true o WState.init s [] out h0 hr
  unfold serialiseTold
  rw [hr]
  simp only
  rw [h1, toBlobTold_eq w s ds hs]

end Corda
