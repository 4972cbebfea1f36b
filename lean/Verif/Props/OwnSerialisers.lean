import Verif.Lemmas.OwnSerialisers
import Verif.Props.Meaning

/-
C122: a program's own serialisers.
-/

namespace Corda.Props
open Corda Prog Spec FProg

/-- What is asked of the types of a blob: plain fields, no name of a primitive type, types of the same name or the same
descriptor are the same. -/
structure Decent (ts : List TypeNotation) : Prop where
  plain : ∀ t ∈ ts, PlainType t
  names : SameNames ts
  descriptors : SameDescriptors ts

theorem Sensible.decent {ts : List TypeNotation} (h : Sensible ts) : Decent ts := ⟨h.plain, h.names, h.descriptors⟩

/-- After the types of a blob have been processed by a factory with these serialisers, it has all readers. -/
theorem provided {lf : Bool} {own : OwnSerialisers} {texts : List (Str × OwnText)} (hw : Serve own texts) {ts : List TypeNotation}
    (hs : Decent ts) {ls : List (List TypeNotation)} (hsub : ∀ t, t ∈ ls.flatten ↔ t ∈ ts)
    (ho : Ordered (own.map Prod.fst) ls.flatten) :
    ∃ F', process lf (Schema.make ls) (Factory.empty.installAll 0 (own.map Prod.fst)) = (.ok (), F') ∧
      Provided own texts F' (Schema.make ls) ts ∧
      ∀ d, (∃ t ∈ ts, t.descriptor = d ∧ ∃ i, ReaderFor F' t.name i ∧ F'.byDesc.lookup d = some (some i)) ∨
        ((∀ t ∈ ts, t.descriptor ≠ d) ∧ F'.byDesc.lookup d = none) := by
  obtain ⟨-, hd0, hall⟩ := installAll_has hw Factory.empty 0
  have hnm := hw.names
  generalize Factory.empty.installAll 0 (own.map Prod.fst) = F0 at hd0 hall ⊢
  have hI : Inv F0 (own.map Prod.fst) [] (own.map Prod.fst) [] := by
    have hin : ∀ k e, F0.byType.lookup k = some e → k ∈ own.map Prod.fst ∧ ∃ (i : Nat) (o : Ser), e = some i ∧ F0.objs[i]? = some o ∧ o.type = k := by
      intro k e hk
      have hk' := hall k
      cases ht : theirs texts k with
      | none =>
        rw [ht] at hk'
        rw [hk'] at hk
        simp [Factory.empty] at hk
      | some f =>
        rw [ht] at hk'
        obtain ⟨i, m, _, h1, h2, -⟩ := hk'
        unfold ReaderFor at h1
        rw [h1] at hk
        cases hk
        refine ⟨?_, i, _, rfl, h2, rfl⟩
        rw [hnm]
        by_cases hmem : k ∈ texts.map Prod.fst
        · exact hmem
        · rw [theirs_none.mpr hmem] at ht; cases ht
    refine ⟨fun k e hk => (hin k e hk).2, fun k i o hk _ => .inr (.inr (hin k _ hk).1), fun k hk => ?_,
      fun k i hk => .inl (hin k _ hk).1, by simp⟩
    have hk' := hall k
    cases ht : theirs texts k with
    | none => rw [hnm] at hk; exact absurd hk (theirs_none.mp ht)
    | some f =>
      rw [ht] at hk'
      obtain ⟨i, m, _, h1, -⟩ := hk'
      exact ⟨i, h1⟩
  have hsub' : ∀ t ∈ ls.flatten, t ∈ ts := fun t ht => (hsub t).mp ht
  rcases run_all lf ls.flatten (fun t ht => hs.plain t (hsub' t ht)) hI with ⟨_, F', h1, h2, h3, h4, h5, h6⟩ | ⟨h1, -⟩
  · refine ⟨F', ?_, ⟨?_, hs.names, fun u hu => (hs.plain u hu).1, ?_⟩, fun d => ?_⟩
    · unfold process; rw [schema_make_types]; exact h1
    · intro k i hi
      have hk' := hall k
      cases ht : theirs texts k with
      | some f =>
        rw [ht] at hk'
        obtain ⟨j, m, d, g1, g2, g3, g4⟩ := hk'
        have : i = j := by have := hi.symm.trans (h5 _ _ g1); simpa using this
        subst this
        exact ⟨_, h4 _ _ g2, m, d, by simp, g3, g4 _⟩
      | none =>
        obtain ⟨i', o, e, g1, g2⟩ := h3.clean k _ hi
        cases e
        refine ⟨o, g1, ?_⟩
        rcases h3.entry k i o hi g1 with hp | ⟨t, hm, hn, hb⟩ | hc
        · exact .inl hp
        · rw [List.append_nil] at hm
          exact .inr ⟨t, hsub' t (List.mem_reverse.mp hm), hn, hb⟩
        · rw [hnm] at hc
          exact absurd hc (theirs_none.mp ht)
    · intro d
      rw [(C16_lookup ls d).2, find_same hsub hs.descriptors]
      rfl
    · rcases h6 d with ⟨t, hm, hd, hi⟩ | ⟨hno, hl⟩
      · exact .inl ⟨t, hsub' t hm, hd, hi⟩
      · refine .inr ⟨fun t ht => hno t ((hsub t).mpr ht), ?_⟩
        rw [hl, hd0]
        rfl
  · exact absurd ho h1

/-- The descriptions make these types, which are decent and can be put into an order in which each type follows those it needs,
where the types of the program's own serialisers need nothing. -/
structure DescribeOwn (own : List Str) (ds : List TypeDesc) (ts : List TypeNotation) : Prop where
  made : ds.map TypeDesc.make = ts.map Res.ok
  decent : Decent ts
  sorted : ∃ ls, insertAllR TypeNotation.dependsOn ts = .ok ls ∧ Ordered own ls.flatten

/-- **C122, of serialisers that behave well.** A program installs any number of serialisers of its own and shows a blob of any types
that make sense with any payload.  Then what is shown is what `payloadOwn` says: wherever a value stands whose type has such a serialiser,
what that serialiser makes of it, and everything else as always. -/
theorem C122_own_partial (leftFirst : Bool) (own : OwnSerialisers) (texts : List (Str × OwnText)) (hw : Serve own texts) (ds : List TypeDesc)
    (ts : List TypeNotation) (h : DescribeOwn (own.map Prod.fst) ds ts) (d : Str) (rest : List Node) :
    inspectWith own leftFirst (blobOf ds (payloadTree d rest)) =
      (payloadOwn texts leftFirst ts d (payloadTree d rest), blobOf ds (payloadTree d rest)) := by
  obtain ⟨hm, hs, ls, hl, ho⟩ := h
  have hperm := (C11_schema_types ts ls hl).1
  have hsub : ∀ t, t ∈ ls.flatten ↔ t ∈ ts := fun t => hperm.mem_iff
  obtain ⟨n, hn, hc⟩ : ∃ n, envelopeProton [payloadTree d rest] (schemaProton (ds.map TypeDesc.proton)) = [n] ∧
      (blobOf ds (payloadTree d rest)).cur = some n := by
    refine ⟨_, ?_, rfl⟩
    have : ds.map TypeDesc.proton = (ds.map TypeDesc.tree).map fun n => [n] := by
      rw [List.map_map]
      exact List.map_congr_left fun d _ => TypeDesc.proton_eq d
    rw [this, schemaProton_eq, envelopeProton_eq]
  generalize blobOf ds (payloadTree d rest) = c at hc ⊢
  have hr : readEnvelope c = (.ok (Schema.make ls, d), c) := by
    have := C22_envelope_round_trip ds ts d rest hm c n hn hc
    rw [this, hl]
    rfl
  obtain ⟨st, tr, hcur⟩ : ∃ st tr, c.cur = some (envelopeTree (payloadTree d rest) st tr) := by
    have : ds.map TypeDesc.proton = (ds.map TypeDesc.tree).map fun n => [n] := by
      rw [List.map_map]
      exact List.map_congr_left fun d _ => TypeDesc.proton_eq d
    rw [this, schemaProton_eq, envelopeProton_eq] at hn
    simp only [List.cons.injEq, and_true] at hn
    exact ⟨_, _, by rw [hc, ← hn]⟩
  obtain ⟨F', h1, h2, h3⟩ := provided (lf := leftFirst) hw hs hsub ho
  unfold inspectWith dumpContents
  rw [hr]
  simp only [h1]
  rcases h3 d with ⟨t, ht, hd, i, hi, hlook⟩ | ⟨hno, hlook⟩
  · simp only [Factory.findDesc, hlook, Option.join, Option.bind_some, id]
    have hin := dump_own hw.inside (lf := leftFirst) h2 (c.fuel + 1) t.name i (some parsedName) [payloadTree d rest, st, tr] 0 hi
    rw [dumpPayload_is hw.inside hcur rfl hin]
    have hfind : ts.find? (fun u => u.descriptor == d) = some t := by
      cases hf : ts.find? (fun u => u.descriptor == d) with
      | none => have := List.find?_eq_none.mp hf t ht; simp [hd] at this
      | some u =>
        have hm' := List.mem_of_find?_eq_some hf
        have hp' : u.descriptor = d := by have := List.find?_some hf; simpa using this
        rw [hs.descriptors u hm' t ht (by rw [hp', hd])]
    unfold payloadOwn
    rw [hfind]
    have hdep : textOwn texts leftFirst ts (c.fuel + 1) true t.name (some (payloadTree d rest)) =
        textOwn texts leftFirst ts (payloadTree d rest).height true t.name (some (payloadTree d rest)) := by
      refine textOwn_depth _ _ _ _ _ ?_ (Nat.le_refl _)
      unfold Cursor.fuel
      rw [hcur]
      have := height_kids (v := .list) (ks := [payloadTree d rest, st, tr]) (k := payloadTree d rest) (by simp)
      have := height_kids (v := .described) (ks := [.mk (.ulong (cordaId 1)) [], .mk .list [payloadTree d rest, st, tr]])
        (k := .mk .list [payloadTree d rest, st, tr]) (by simp)
      simp only [envelopeTree, element, depthOf]
      omega
    refine Prod.ext ?_ rfl
    exact congrArg (fun r : Res Str => r.bind fun t => .ok ("{ Parsed : ".toList ++ t ++ " }".toList)) hdep
  · simp only [Factory.findDesc, hlook, Option.join]
    have hfind : ts.find? (fun u => u.descriptor == d) = none := by
      rw [List.find?_eq_none]
      intro u hu
      simpa using hno u hu
    unfold payloadOwn
    rw [hfind]
    rfl

theorem DescribeOwn.mono {K K' : List Str} {ds : List TypeDesc} {ts : List TypeNotation} (h : DescribeOwn K ds ts)
    (hk : ∀ k ∈ K, k ∈ K') : DescribeOwn K' ds ts := by
  obtain ⟨h1, h2, ls, h3, h4⟩ := h
  exact ⟨h1, h2, ls, h3, ordered_mono _ hk h4⟩

/-- A serialiser that shows a fixed text in place of the value and steps over it. -/
def hide : OwnDump := fun _ name => autoNext (pure (text name "hidden".toList))

theorem hide_behaves (s : Schema) : WellBehaved (hide s) (fun _ _ => .ok "hidden".toList) := by
  refine ⟨fun name => scoped_autoNext (scoped_pure _), fun name c => ?_, fun name c v h => ⟨rfl, rfl⟩⟩
  show Res.ok (text name "hidden".toList).dump = Res.ok (labelled name "hidden".toList)
  rw [text_dump]

theorem unmentioned_same (leftFirst : Bool) (a other b : OwnSerialisers) (A Other B : List (Str × OwnText)) (ha : Serve a A)
    (hother : Serve other Other) (hb : Serve b B) (ds : List TypeDesc) (ts : List TypeNotation)
    (h : DescribeOwn ((a ++ b).map Prod.fst) ds ts) (hu : Unmentioned (other.map Prod.fst) ts) (d : Str) (rest : List Node) :
    inspectWith (a ++ other ++ b) leftFirst (blobOf ds (payloadTree d rest)) =
      inspectWith (a ++ b) leftFirst (blobOf ds (payloadTree d rest)) := by
  rw [C122_own_partial leftFirst _ _ (ha.append hb) ds ts h d rest,
    C122_own_partial leftFirst _ _ ((ha.append hother).append hb) ds ts (h.mono (by
      intro k hk
      simp only [List.map_append, List.mem_append] at hk ⊢
      exact hk.imp .inl id)) d rest]
  refine Prod.ext (payloadOwn_same hu (fun t ht => ?_) _ _) rfl
  rw [hother.names] at ht
  simp only [theirs_append, theirs_none.mpr ht]

/-- The same types, everything hidden. -/
def hidden (other : OwnSerialisers) : OwnSerialisers := other.map fun x => (x.1, hide)

theorem hidden_names (other : OwnSerialisers) : (hidden other).map Prod.fst = other.map Prod.fst := by simp [hidden]

theorem hidden_serve (other : OwnSerialisers) : Serve (hidden other) (other.map fun x => (x.1, fun _ _ => .ok "hidden".toList)) := by
  induction other with
  | nil => exact .nil
  | cons x other ih => exact .cons hide_behaves ih

theorem hidden_at {a other b : OwnSerialisers} {m : Nat} {k : Str} {x : OwnDump} (h : (a ++ hidden other ++ b)[m]? = some (k, x))
    (hk : k ∉ other.map Prod.fst) : (a ++ other ++ b)[m]? = some (k, x) := by
  have hl : (hidden other).length = other.length := by simp [hidden]
  simp only [List.append_assoc, List.getElem?_append, hl] at h ⊢
  split
  · rename_i h1; rwa [if_pos h1] at h
  · rename_i h1
    rw [if_neg h1] at h
    split
    · rename_i h2
      rw [if_pos h2] at h
      have := List.mem_map_of_mem (f := Prod.fst) (List.mem_of_getElem? h)
      rw [hidden_names] at this
      exact absurd this hk
    · rename_i h2; rwa [if_neg h2] at h

/-- What a serialiser does does not matter if it is for a type that is not mentioned or if there is a later one for its type. -/
theorem swap_same (leftFirst : Bool) {own own' : OwnSerialisers} {texts : List (Str × OwnText)} (hserve : Serve own texts)
    (hnames : own'.map Prod.fst = own.map Prod.fst) {bad : List Str} {ds : List TypeDesc} {ts : List TypeNotation}
    (h' : DescribeOwn (own.map Prod.fst) ds ts) (hu : Unmentioned bad ts)
    (hsame : ∀ m k x, k ∉ bad → LastAt own k m x → own'[m]? = some (k, x)) (d : Str) (rest : List Node) :
    inspectWith own' leftFirst (blobOf ds (payloadTree d rest)) = inspectWith own leftFirst (blobOf ds (payloadTree d rest)) := by
  obtain ⟨hm, hs, ls, hl, ho⟩ := h'
  have hperm := (C11_schema_types ts ls hl).1
  have hsub : ∀ t, t ∈ ls.flatten ↔ t ∈ ts := fun t => hperm.mem_iff
  obtain ⟨F', h1, h2, h3⟩ := provided (lf := leftFirst) hserve hs hsub ho
  have hr : readEnvelope (blobOf ds (payloadTree d rest)) = (.ok (Schema.make ls, d), blobOf ds (payloadTree d rest)) := by
    have hn : envelopeProton [payloadTree d rest] (schemaProton (ds.map TypeDesc.proton)) =
        [envelopeTree (payloadTree d rest) (schemaTree (ds.map TypeDesc.tree)) (.mk .null [])] := by
      have : ds.map TypeDesc.proton = (ds.map TypeDesc.tree).map fun n => [n] := by
        rw [List.map_map]
        exact List.map_congr_left fun d _ => TypeDesc.proton_eq d
      rw [this, schemaProton_eq, envelopeProton_eq]
    rw [C22_envelope_round_trip ds ts d rest hm _ _ hn rfl, hl]
    rfl
  unfold inspectWith dumpContents
  rw [hnames, hr]
  simp only [h1]
  rcases h3 d with ⟨t, ht, hd, i, hi, hlook⟩ | ⟨hno, hlook⟩
  · simp only [Factory.findDesc, hlook, Option.join, Option.bind_some, id]
    have hdump : ∀ fuel, dump own'.customs leftFirst F' (Schema.make ls) fuel i =
        dump own.customs leftFirst F' (Schema.make ls) fuel i := by
      intro fuel
      refine dump_congr (fun j => ∃ k, k ∉ bad ∧ ReaderFor F' k j) ?_ fuel i ⟨t.name, hu.types t ht, hi⟩
      rintro j o ⟨k, hk, hj⟩ hob
      obtain ⟨o', ho', he⟩ := h2.entry k j hj
      rw [hob] at ho'
      cases ho'
      split at he
      · obtain ⟨m, x, hkind, hx, -⟩ := he
        refine ⟨fun n hn => ?_, fun hc => ?_⟩
        · have : n = m := by rw [hkind] at hn; cases hn; rfl
          subst this
          funext s name
          simp only [OwnSerialisers.customs, hx.1, hsame _ _ _ hk hx]
        · simp [hkind] at hc
      · rcases he with ⟨p, -, hkind⟩ | ⟨u, hmem, rfl, hb⟩
        · refine ⟨fun n hn => ?_, fun hc => ?_⟩
          · simp [hkind] at hn
          · simp [hkind] at hc
        · cases u with
          | comp c =>
            obtain ⟨hkind, hlen, hg⟩ := hb
            refine ⟨fun n hn => ?_, fun _ j hj => ?_⟩
            · simp [hkind] at hn
            · obtain ⟨p, hp, rfl⟩ := List.mem_iff_getElem.mp hj
              have hp' : p < c.fields.length := hlen ▸ hp
              obtain ⟨q, hq, hr⟩ := hg c.fields[p] o.subs[p]
                (List.mem_iff_getElem.mpr ⟨p, by rw [List.length_zip]; omega, by simp⟩)
              exact ⟨q, hu.fields c hmem _ (List.getElem_mem _) q (resolved_of_named.mpr hq), hr⟩
          | restr r =>
            simp only [Built] at hb
            cases hk : r.kind with
            | list l =>
              simp only [hk] at hb
              obtain ⟨hkind, j1, hs, hj1⟩ := hb
              refine ⟨fun n hn => ?_, fun _ j hj => ?_⟩
              · simp [hkind] at hn
              · rw [hs, List.mem_singleton] at hj
                subst hj
                exact ⟨l, hu.elems r l hmem (.inl hk), hj1⟩
            | array l =>
              simp only [hk] at hb
              obtain ⟨hkind, j1, hs, hj1⟩ := hb
              refine ⟨fun n hn => ?_, fun _ j hj => ?_⟩
              · simp [hkind] at hn
              · rw [hs, List.mem_singleton] at hj
                subst hj
                exact ⟨l, hu.elems r l hmem (.inr hk), hj1⟩
            | map x y =>
              simp only [hk] at hb
              obtain ⟨hkind, j1, j2, hs, hj1, hj2⟩ := hb
              refine ⟨fun n hn => ?_, fun _ j hj => ?_⟩
              · simp [hkind] at hn
              · simp only [hs, List.mem_cons, List.not_mem_nil, or_false] at hj
                rcases hj with rfl | rfl
                · exact ⟨x, (hu.pairs r x y hmem hk).1, hj1⟩
                · exact ⟨y, (hu.pairs r x y hmem hk).2, hj2⟩
            | enum cs =>
              simp only [hk] at hb
              refine ⟨fun n hn => ?_, fun hc => ?_⟩
              · simp [hb] at hn
              · simp [hb] at hc
    unfold dumpPayload
    simp only [hdump]
  · simp only [Factory.findDesc, hlook, Option.join]
    rfl

/-- **C122, of types that do not occur.** Serialisers for types that the schema does not mention change nothing, whatever they do and
whenever they are installed. -/
theorem C122_unmentioned_partial (leftFirst : Bool) (a other b : OwnSerialisers) (A B : List (Str × OwnText)) (ha : Serve a A)
    (hb : Serve b B) (ds : List TypeDesc) (ts : List TypeNotation)
    (h : DescribeOwn ((a ++ b).map Prod.fst) ds ts) (hu : Unmentioned (other.map Prod.fst) ts) (d : Str) (rest : List Node) :
    inspectWith (a ++ other ++ b) leftFirst (blobOf ds (payloadTree d rest)) =
      inspectWith (a ++ b) leftFirst (blobOf ds (payloadTree d rest)) := by
  rw [← unmentioned_same leftFirst a (hidden other) b A _ B ha (hidden_serve other) hb ds ts h (by rwa [hidden_names]) d rest]
  have hnames : (a ++ other ++ b).map Prod.fst = (a ++ hidden other ++ b).map Prod.fst := by
    simp only [List.map_append, hidden_names]
  have hserve := (ha.append (hidden_serve other)).append hb
  refine swap_same leftFirst hserve hnames (h.mono (by
      intro k hk
      simp only [List.map_append, List.mem_append] at hk ⊢
      exact hk.imp .inl id)) hu (fun m k x hk hx => hidden_at hx.1 hk) d rest

theorem last_same (leftFirst : Bool) (a b : OwnSerialisers) (t : Str) (x : OwnDump) (A B : List (Str × OwnText)) (X : OwnText)
    (ha : Serve a A) (hx : ∀ s, WellBehaved (x s) X) (hb : Serve b B) (hlater : t ∈ b.map Prod.fst) (ds : List TypeDesc)
    (ts : List TypeNotation) (h : DescribeOwn ((a ++ b).map Prod.fst) ds ts) (d : Str) (rest : List Node) :
    inspectWith (a ++ (t, x) :: b) leftFirst (blobOf ds (payloadTree d rest)) =
      inspectWith (a ++ b) leftFirst (blobOf ds (payloadTree d rest)) := by
  rw [C122_own_partial leftFirst _ _ (ha.append hb) ds ts h d rest,
    C122_own_partial leftFirst _ _ (ha.append (.cons hx hb)) ds ts (h.mono (by
      intro k hk
      simp only [List.map_append, List.mem_append, List.map_cons, List.mem_cons] at hk ⊢
      exact hk.imp id .inr)) d rest]
  refine Prod.ext (payloadOwn_same (names := []) ⟨by simp, by simp, by simp, by simp⟩ (fun k _ => ?_) _ _) rfl
  rw [theirs_append, theirs_append, theirs]
  cases hk : theirs B k with
  | some g => rfl
  | none =>
    have hne : k ≠ t := by
      rintro rfl
      rw [hb.names] at hlater
      exact theirs_none.mp hk hlater
    simp only [if_neg hne]

/-- **C122, of two for the same type.** A serialiser has no effect, whatever it does, if another one for the same type is installed
later. -/
theorem C122_last_partial (leftFirst : Bool) (a b : OwnSerialisers) (t : Str) (x : OwnDump) (A B : List (Str × OwnText)) (ha : Serve a A)
    (hb : Serve b B) (hlater : t ∈ b.map Prod.fst) (ds : List TypeDesc)
    (ts : List TypeNotation) (h : DescribeOwn ((a ++ b).map Prod.fst) ds ts) (d : Str) (rest : List Node) :
    inspectWith (a ++ (t, x) :: b) leftFirst (blobOf ds (payloadTree d rest)) =
      inspectWith (a ++ b) leftFirst (blobOf ds (payloadTree d rest)) := by
  rw [← last_same leftFirst a b t hide A B _ ha hide_behaves hb hlater ds ts h d rest]
  refine swap_same leftFirst (bad := []) (ha.append (.cons (t := t) hide_behaves hb)) (by simp) (h.mono (by
      intro k hk
      simp only [List.map_append, List.mem_append, List.map_cons, List.mem_cons] at hk ⊢
      exact hk.imp id .inr)) ⟨by simp, by simp, by simp, by simp⟩ (fun m k y _ hy => ?_) d rest
  obtain ⟨h1, h2⟩ := hy
  by_cases hm : m = a.length
  · subst hm
    simp only [List.getElem?_append_right (Nat.le_refl _), Nat.sub_self, List.getElem?_cons_zero, Option.some.injEq, Prod.mk.injEq] at h1
    obtain ⟨rfl, rfl⟩ := h1
    obtain ⟨⟨k', z⟩, hz, rfl⟩ := List.mem_map.mp hlater
    obtain ⟨p, hp⟩ := List.mem_iff_getElem?.mp hz
    refine absurd ?_ (h2 (a.length + (p + 1)) z (by omega))
    rw [List.getElem?_append_right (by omega)]
    simpa using hp
  · rw [List.getElem?_append] at h1 ⊢
    split
    · rename_i hl; rwa [if_pos hl] at h1
    · rename_i hl
      rw [if_neg hl] at h1
      obtain ⟨p, hp⟩ : ∃ p, m - a.length = p + 1 := ⟨m - a.length - 1, by omega⟩
      rw [hp] at h1 ⊢
      simpa using h1

/-! ### Examples -/

theorem publicKey_nothing {c : Cursor} (hc : c.cur = none) (name : Option Str) :
    ∃ m, (publicKeyDump name c).1 = .throw m ∧ keyText name.isSome none = .throw m := by
  cases name with
  | none => exact ⟨_, rfl, rfl⟩
  | some n =>
    refine ⟨"Expected a Described type", ?_, rfl⟩
    have ha : attestDescribed c = (.throw "Expected a Described type", c) :=
      attest_no (by simp [Cursor.type, Cursor.val, hc])
    simp only [publicKeyDump, autoNext]
    rw [Prog.bind_def, ha]

/-- The serialiser of the repository is such a one. -/
theorem publicKey_behaves : WellBehaved publicKeyDump keyText := by
  refine ⟨scoped_publicKeyDump, fun name c => ?_, fun name c v h => ?_⟩
  · cases hc : c.cur with
    | some n => exact ((is_publicKey name (ps := n :: c.rest) (i := 0)) c ⟨by rw [hc]; rfl, rfl⟩).1
    | none =>
      obtain ⟨m, h1, h2⟩ := publicKey_nothing hc name
      rw [h1, h2]
      rfl
  · cases hc : c.cur with
    | some n =>
      have hp : Pos (n :: c.rest) 0 c := ⟨by rw [hc]; rfl, rfl⟩
      have h1 := ((is_publicKey name (ps := n :: c.rest) (i := 0)) c hp).2 v h
      have h2 : Pos (n :: c.rest) 1 c.next.2 := (is_next c hp).2 _ rfl
      exact ⟨h1.1.trans h2.1.symm, h1.2.trans h2.2.symm⟩
    | none =>
      obtain ⟨m, h1, -⟩ := publicKey_nothing hc name
      rw [h1] at h
      cases h

def passwordD : TypeDesc := .comp "Password".toList [] [] "fpPw".toList [⟨"text".toList, "string".toList, [], [], [], true, false⟩]
def loginD : TypeDesc := .comp "Login".toList [] [] "fpLogin".toList
  [⟨"user".toList, "string".toList, [], [], [], true, false⟩, ⟨"password".toList, "Password".toList, [], [], [], true, false⟩,
   ⟨"tries".toList, "int".toList, [], [], [], true, false⟩]

/-- A user called `a`, the password `b`, three tries. -/
def login : Cursor := blobOf [passwordD, loginD] (described "fpLogin".toList (.mk .list [.mk (.string "a".toList) [],
  described "fpPw".toList (.mk .list [.mk (.string "b".toList) []]), .mk (.int 3) []]))

/-- Without serialisers of its own the program shows everything. -/
example : ∀ lf : Bool, (inspectWith [] lf login).1 =
    .ok "{ Parsed : { user : \"a\", password : { text : \"b\" }, tries : 3 } }".toList := by decide +kernel

/-- With one for passwords these are hidden, although the schema describes them. -/
example : ∀ lf : Bool, (inspectWith [("Password".toList, hide)] lf login).1 =
    .ok "{ Parsed : { user : \"a\", password : hidden, tries : 3 } }".toList := by decide +kernel

/-- With one for texts these are hidden everywhere. -/
example : ∀ lf : Bool, (inspectWith [("string".toList, hide)] lf login).1 =
    .ok "{ Parsed : { user : hidden, password : { text : hidden }, tries : 3 } }".toList := by decide +kernel

theorem describe_own_example : DescribeOwn [("In".toList, hide)].unzip.1 [listD, inD] [madeList, madeIn] :=
  ⟨made_example, (sound_example true).sensible.decent, [[madeIn], [madeList]], by decide +kernel, by decide +kernel⟩

/-- `C122_own_partial` applies: a list of any values as seen with a serialiser for its elements. -/
example (lf : Bool) (ns : List Node) : (inspectWith [("In".toList, hide)] lf (blobOf [listD, inD] (described "fpL".toList (.mk .list ns)))).1 =
    payloadOwn [("In".toList, fun _ _ => .ok "hidden".toList)] lf [madeList, madeIn] "fpL".toList (described "fpL".toList (.mk .list ns)) :=
  congrArg Prod.fst (C122_own_partial lf _ _ (.cons hide_behaves .nil) _ _ describe_own_example "fpL".toList [.mk .list ns])

example : ∀ lf : Bool, payloadOwn [("In".toList, fun _ _ => .ok "hidden".toList)] lf [madeList, madeIn] "fpL".toList
    (described "fpL".toList (.mk .list [.mk .null [], .mk (.int 3) []])) = .ok "{ Parsed : [ hidden, hidden ] }".toList := by decide +kernel

/-- `C122_unmentioned_partial` applies: a serialiser for passwords, whatever it does, changes nothing for a list of numbers. -/
example (lf : Bool) (x : OwnDump) (ns : List Node) :
    inspectWith [("Password".toList, x)] lf (blobOf [listD, inD] (described "fpL".toList (.mk .list ns))) =
      inspectWith [] lf (blobOf [listD, inD] (described "fpL".toList (.mk .list ns))) := by
  refine C122_unmentioned_partial lf [] [("Password".toList, x)] [] [] [] .nil .nil [listD, inD] [madeList, madeIn]
    ⟨made_example, (sound_example true).sensible.decent, [[madeIn], [madeList]], by decide +kernel, by decide +kernel⟩ ?_ "fpL".toList [.mk .list ns]
  refine ⟨?_, ?_, ?_, ?_⟩
  · show ∀ t ∈ [madeList, madeIn], t.name ∉ ["Password".toList]
    decide +kernel
  · intro c hc f hf t ht
    simp only [madeList, madeIn, List.mem_cons, List.not_mem_nil, or_false, reduceCtorEq, false_or, TypeNotation.comp.injEq] at hc
    subst hc
    simp only [List.mem_singleton] at hf
    subst hf
    cases ht
    show _ ∉ ["Password".toList]
    decide +kernel
  · intro r l hr hk
    simp only [madeList, madeIn, List.mem_cons, List.not_mem_nil, or_false, reduceCtorEq, TypeNotation.restr.injEq] at hr
    subst hr
    have : l = "In".toList := by
      rcases hk with hk | hk <;> cases hk
      rfl
    subst this
    show _ ∉ ["Password".toList]
    decide +kernel
  · intro r k v hr hk
    simp only [madeList, madeIn, List.mem_cons, List.not_mem_nil, or_false, reduceCtorEq, TypeNotation.restr.injEq] at hr
    subst hr
    cases hk

/-- A serialiser like `hide` that does not step over the value. -/
def stuck : OwnDump := fun _ name => pure (text name "hidden".toList)

/-- **C122, violated**: a serialiser that does not step over its value makes the next property be shown wrongly, where no exception says
so: the number of tries is given as 0. -/
theorem C122_stuck_violated : ∀ lf : Bool, (inspectWith [("Password".toList, stuck)] lf login).1 =
    .ok "{ Parsed : { user : \"a\", password : hidden, tries : 0 } }".toList := by decide +kernel

/-- Installed before the second blob it does its work, if the types that refer to its type are new: here the blobs have nothing in
common. -/
example : ∀ lf : Bool, inspectTwice [] [("Password".toList, hide)] lf
    (blobOf [listD, inD] (described "fpIn".toList (.mk .list [.mk (.int 7) []]))) login =
    (.ok "{ Parsed : { x : 7 } }".toList, .ok "{ Parsed : { user : \"a\", password : hidden, tries : 3 } }".toList) := by decide +kernel

/-- **C122, violated**: installed after a blob has been shown, a serialiser takes the place of a reader that others still refer to.  The
very blob that was shown before cannot be shown any more. -/
theorem C122_later_violated : ∀ lf : Bool, inspectTwice [] [("Password".toList, hide)] lf login login =
    (.ok "{ Parsed : { user : \"a\", password : { text : \"b\" }, tries : 3 } }".toList, .throw "null field reader") := by decide +kernel

/-- A list of two objects. -/
def twoIn : Cursor := blobOf [listD, inD] (described "fpL".toList (.mk .list [valTree (inV 1), valTree (inV 2)]))

/-- **C122, violated**: for the elements of a list it is undefined behaviour. -/
theorem C122_later_list_violated : ∀ lf : Bool, (inspectTwice [] [("In".toList, hide)] lf twoIn twoIn).1 =
    .ok "{ Parsed : [ { x : 1 }, { x : 2 } ] }".toList ∧ (inspectTwice [] [("In".toList, hide)] lf twoIn twoIn).2.IsUB := by
  decide +kernel

end Corda.Props

#print axioms Corda.Props.C122_own_partial
#print axioms Corda.Props.C122_unmentioned_partial
#print axioms Corda.Props.C122_last_partial
#print axioms Corda.Props.C122_stuck_violated
#print axioms Corda.Props.C122_later_violated
#print axioms Corda.Props.C122_later_list_violated
