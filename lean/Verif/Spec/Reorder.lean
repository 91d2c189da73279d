import Verif.Model.Write
/-
Writes one after the other.
-/
namespace S2S.Spec

/-- One write after the other, up to the first that fails. -/
def inTurn : List (WrE CastError Unit) → WrE CastError Unit
  | [] => WrE.ok ()
  | w :: ws => w.andThen fun _ => inTurn ws

end S2S.Spec
