import Verif.Model.Columns
import Verif.Lemmas.Table

namespace V11

/-- Every column `table!` offers is lawful. -/
@[reducible] def ColSpec.lawful (max : Nat) : (c : ColSpec) → LawfulCol max (c.col max)
  | .vec E => vecLawful max
  | .bool => boolLawful max
  | .index E _ => indexLawful
  | .indexBool => indexLawful

/-- So every schema built from them is. -/
instance mkSchemaLawful {n : Nat} (cs : Fin (n + 1) → ColSpec) (max : Nat) (kind : Kind) :
    LawfulSchema (mkSchema cs max kind) where
  law j := (cs j).lawful max

end V11
