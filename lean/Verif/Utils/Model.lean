import Mathlib.Data.List.Basic

/-
Model of include/ndt_gslam/utils/string_tools.h.  (`getMinMax2D` and `getMinMaxNDT2D` of
point_cloud_tools.h are modelled by `NDTGrid.minMax`.)
-/
namespace Verif.Utils

variable {α : Type} [DecidableEq α]

/-- `std::string::find(token)`: the first position at which `token` starts, `none` is `npos`.  (The empty
token is found at position 0.) -/
def find (token : List α) : List α → Option ℕ
  | [] => if token.isPrefixOf [] then some 0 else none
  | c :: s => if token.isPrefixOf (c :: s) then some 0 else (find token s).map (· + 1)

/-- The do-while loop of `split`, string_tools.h:27-32; `fuel` bounds the number of iterations and the result
is `none` if the loop has not ended by then. -/
def splitLoop (token : List α) : (fuel : ℕ) → (temp : List α) → Option (List (List α))
  | 0, _ => none
  | fuel + 1, temp =>
    match find token temp with
    | none => some [temp]
    | some pos => (splitLoop token fuel (temp.drop (pos + token.length))).map (temp.take pos :: ·)

end Verif.Utils
