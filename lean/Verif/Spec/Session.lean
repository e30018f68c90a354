import Verif.Model.Universe

/-!
# What the calls made under one write lock amount to
-/

namespace V11
variable {S : Schema}

/-- The call adds rows. -/
def LOp.adds : LOp S → Bool
  | .push _ => true
  | .pushArray rows => !rows.isEmpty
  | _ => false

/-- The call marks rows for deletion. -/
def LOp.deletes : LOp S → Bool
  | .delete _ | .clear => true
  | _ => false

/-- The call leaves something to flush. -/
def LOp.touches : LOp S → Bool
  | .push _ | .delete _ | .clear | .select _ | .selectAll => true
  | .pushArray rows => !rows.isEmpty
  | _ => false

/-- The row a `delete` or `select` call marks. -/
def LOp.mark : LOp S → Option Nat
  | .delete i | .select i => some i
  | _ => none

end V11
