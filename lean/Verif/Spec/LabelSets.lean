import Verif.Model.LabelSets
import Verif.Spec.Labels
/-
The number a label becomes as a `std::size_t`.
-/
namespace S2S.Spec
open Compare

/-- The label, as a `std::size_t`, is `n`: an integer modulo its size, a floating-point number
without its fraction, if that is one, an object as it converts. -/
def Converts (cfg : Cfg) : Label → Nat → Prop
  | .int _ v, n => n < cfg.szMod ∧ ∃ k : Int, v = n + k * cfg.szMod
  | .float b k, n => n < cfg.szMod ∧ Truncates (real b k) n
  | .object _ c, n => ∃ v, c = some v ∧ n < cfg.szMod ∧ ∃ k : Int, v = n + k * cfg.szMod

end S2S.Spec
