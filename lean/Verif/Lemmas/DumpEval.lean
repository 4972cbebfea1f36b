import Verif.Lemmas.SchemaDump
import Verif.Spec.SchemaDump

/-
Evaluating the schema dumps step by step: the pieces the raw and the Avro form share.
-/

namespace Corda
open Prog Spec

/-- `k` levels of indentation. -/
def ind (k : Nat) : Str := List.replicate (2 * k) ' '

theorem ind_zero : ind 0 = [] := rfl
theorem deeper_ind (k : Nat) : deeper (ind k) = ind (k + 1) := by
  unfold deeper ind
  rw [show oneIndent = List.replicate 2 ' ' from by decide, List.replicate_append_replicate]
  rfl

theorem page_nil : page [] = [] := rfl
theorem page_cons (k : Nat) (s : Str) (ls : List Line) : page (⟨k, s⟩ :: ls) = ind k ++ (s ++ (nl ++ page ls)) := by
  unfold page Line.show nl ind
  simp only [List.flatMap_cons, List.append_assoc]
theorem page_append (a b : List Line) : page (a ++ b) = page a ++ page b := by
  unfold page; rw [List.flatMap_append]
theorem page_flatMap {α : Type} (as : List α) (f : α → List Line) :
    page (as.flatMap f) = as.flatMap fun a => page (f a) := by
  induction as with
  | nil => rfl
  | cons a as ih => simp only [List.flatMap_cons, page_append, ih]

theorem getString_str (b : Bool) (s : Str) (p r : List Node) (u : List (List Node × Atom × List Node)) :
    getString b ⟨p, some (str s), r, u⟩ = (.ok s, ⟨p, some (str s), r, u⟩) := rfl
theorem nextString_str (b : Bool) (s : Str) (p r : List Node) (n : Node)
    (u : List (List Node × Atom × List Node)) :
    autoNext (getString b) ⟨p, some (str s), n :: r, u⟩ = (.ok s, ⟨str s :: p, some n, r, u⟩) := rfl
theorem nextString_opt (s : Option Str) (p r : List Node) (n : Node)
    (u : List (List Node × Atom × List Node)) :
    autoNext (getString true) ⟨p, some (optStr s), n :: r, u⟩ = (.ok (s.getD []), ⟨optStr s :: p, some n, r, u⟩) := by
  cases s <;> rfl
theorem attestString_str (b : Bool) (s : Str) (p r : List Node) (u : List (List Node × Atom × List Node)) :
    attestString b ⟨p, some (str s), r, u⟩ = (.ok (), ⟨p, some (str s), r, u⟩) := rfl
theorem attestString_opt (b : Bool) (s : Option Str) (p r : List Node) (u : List (List Node × Atom × List Node)) :
    attestString b ⟨p, some (optStr s), r, u⟩ = (.ok (), ⟨p, some (optStr s), r, u⟩) := by
  cases s <;> cases b <;> rfl
theorem nextBool_bool (s : Bool) (p r : List Node) (n : Node) (u : List (List Node × Atom × List Node)) :
    autoNext getBoolean ⟨p, some (.mk (.bool s) []), n :: r, u⟩ = (.ok s, ⟨.mk (.bool s) [] :: p, some n, r, u⟩) := rfl
theorem nextBool_last (s : Bool) (p : List Node) (u : List (List Node × Atom × List Node)) :
    autoNext getBoolean ⟨p, some (.mk (.bool s) []), [], u⟩ = (.ok s, ⟨p, some (.mk (.bool s) []), [], u⟩) := rfl
theorem readString_str (b : Bool) (s : Str) (p r : List Node) (n : Node)
    (u : List (List Node × Atom × List Node)) :
    readString b ⟨p, some (str s), n :: r, u⟩ = (.ok s, ⟨str s :: p, some n, r, u⟩) := rfl
theorem readString_opt (s : Option Str) (p r : List Node) (n : Node)
    (u : List (List Node × Atom × List Node)) :
    readString true ⟨p, some (optStr s), n :: r, u⟩ = (.ok (s.getD []), ⟨optStr s :: p, some n, r, u⟩) := by
  cases s <;> rfl
theorem attestList_list (ks p r : List Node) (u : List (List Node × Atom × List Node)) :
    attestList ⟨p, some (.mk .list ks), r, u⟩ = (.ok (), ⟨p, some (.mk .list ks), r, u⟩) := rfl
theorem attestList_strList (ss : List Str) (p r : List Node) (u : List (List Node × Atom × List Node)) :
    attestList ⟨p, some (strList ss), r, u⟩ = (.ok (), ⟨p, some (strList ss), r, u⟩) := rfl
theorem attestDescribed_element (k : Nat) (ps p r : List Node) (u : List (List Node × Atom × List Node)) :
    attestDescribed ⟨p, some (element k ps), r, u⟩ = (.ok (), ⟨p, some (element k ps), r, u⟩) := rfl
theorem attestDescribed_object (fp : Str) (p r : List Node) (u : List (List Node × Atom × List Node)) :
    attestDescribed ⟨p, some (objectTree fp), r, u⟩ = (.ok (), ⟨p, some (objectTree fp), r, u⟩) := rfl

theorem zipIdx_const {α : Type} (as : List α) (f : α → Str) (i : Nat) :
    ((as.zipIdx i).flatMap fun x => f x.1) = as.flatMap f := by
  induction as generalizing i with
  | nil => rfl
  | cons a as ih => simp only [List.zipIdx_cons, List.flatMap_cons, ih]

/-- A list of strings, each written the same way. -/
theorem strings_join (f : Str → Str) (ss : List Str) (p r : List Node) (u : List (List Node × Atom × List Node)) :
    autoListEnter (fun _ => forNext (fun _ => do
      let s ← getString
      pure (f s))) false ⟨p, some (strList ss), r, u⟩ = (.ok (ss.flatMap f), ⟨p, some (strList ss), r, u⟩) := by
  have := listEnter_join (body := fun _ _ => do
      let s ← getString
      pure (f s)) (g := fun _ _ n => (stringOf false n).bind fun s => .ok (f s))
    (fun _ _ => (scoped_bind (scoped_getString _) fun _ => scoped_pure _).on)
    (fun _ _ c k hk => by
      rw [bind_def, getString_at hk]
      cases stringOf false k <;> rfl) p r (ss.map str) u
  unfold strList
  rw [this, joinRes_ok (f := fun _ s => f s) (fun _ _ _ => rfl), zipIdx_const]

theorem byType_described (base : Prog Str) (ks p r : List Node) (u : List (List Node × Atom × List Node)) :
    byType base ⟨p, some (.mk .described ks), r, u⟩ = base ⟨p, some (.mk .described ks), r, u⟩ := rfl

/-- What the registry entry of the element type gives on a node. -/
def byTypeNode (r : Node → Res Str) (n : Node) : Res Str :=
  if n.val.type = .described then r n else .ub "null registry entry"

end Corda
