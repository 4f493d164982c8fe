import Verif.Model.Binary
import Verif.Spec.Tables
/-!
# Specification: binary digits and bitwise operators
-/

namespace Prexel

/-- The number with these binary digits. -/
def binaryValue (ds : Str) : Nat := ds.foldl (fun n d => 2 * n + if d = '1' then 1 else 0) 0

/-- A string of one or more binary digits. -/
def BinaryDigits (ds : Str) : Prop := ds ≠ [] ∧ ∀ d ∈ ds, d = '0' ∨ d = '1'

/-- `k` is one of the names, ignoring case. -/
def Named1 (names : List String) (k : Str) : Prop := ∃ n ∈ names, CaseVariant (str n) k

end Prexel
