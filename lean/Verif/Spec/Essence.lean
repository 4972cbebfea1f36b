import Verif.Model.SchemaTypes

/-
What of a schema type matters for its place in the schema.
-/

namespace Corda.Spec
open Corda

/-- A property without its own name, default, label and flags: only which types it is about. -/
def fieldEssence (f : Field) : Field := ⟨f.kind, [], f.type, f.requires, [], [], false, false, f.subTypes⟩

/-- What a container is of; the constants of an enumeration are left out. -/
def kindEssence : RKind → RKind
  | .enum _ => .enum []
  | k => k

/-- A type without its label, the interfaces it provides, its fingerprint, the names of its properties and its
constants. -/
def essence : TypeNotation → TypeNotation
  | .comp c => .comp ⟨c.name, [], [], [], c.fields.map fieldEssence⟩
  | .restr r => .restr ⟨r.name, [], [], [], kindEssence r.kind⟩

end Corda.Spec
