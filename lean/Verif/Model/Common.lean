import Verif.Model.Py
/-
Model of part of gomill/common.py: colours and points.
-/
namespace Gomill

/-- The colours 'b' and 'w'.  Strings other than these (for which opponent_of raises ValueError) are not modelled. -/
inductive Colour where
  | b
  | w
  deriving DecidableEq, Repr

/-- common.py:12-24 `opponent_of`. -/
def Colour.opponent : Colour → Colour
  | .b => .w
  | .w => .b

/-- Coordinate pair (row, col); Python ints. -/
abbrev Pt := Int × Int

end Gomill
