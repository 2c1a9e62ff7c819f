import Verif.Model.Quantity
/-! The interpolation formula on numbers that may be NaN. -/
namespace MLMC
variable {F : Type} [Field F]

/-- The formula of `interp1d` on floats, where `none` is NaN: both neighbouring nodes enter it, also if the place is one of them;
/repo/mlmc/quantity/quantity_types.py:172-173. -/
def floatBetween (x0 x1 v : ℚ) (y0 y1 : Option F) : Option F := y0.bind fun a => y1.map fun b => linearBetween x0 x1 v a b

end MLMC
