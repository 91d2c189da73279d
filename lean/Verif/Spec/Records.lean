import Verif.Model.Read
import Verif.Spec.Format
/-
A header and then a number of records, on one stream.
-/
namespace S2S.Spec

/-- How many records there are: a fixed number, or one that is taken from the header and limited. -/
inductive Several
  | array (n : Nat)
  | vector (len : LenSpec) (bound : Option Nat) (size : Nat)

/-- The container with them. -/
def Several.kind (fs : List Field) : Several → Kind
  | .array n => .arrRec fs n
  | .vector len bound size => .vecRec fs len bound size

/-- The header, with the container at its end. -/
def followed (hdr : List Field) (id : String) (c : Several) (fs : List Field) : List Field :=
  hdr ++ [.plain id (c.kind fs) .none]

/-- There are `n` of them behind that header. -/
def Several.Are (cfg : Cfg) (env : Env) (n : Nat) : Several → Prop
  | .array m => n = m
  | .vector len bound size =>
      len.eval cfg env = .ok n ∧ n * size ≤ bound.getD cfg.defaultMax ∧ n * size ≤ cfg.ptrdiffMax

/-- The number, the error for too many of them, or undefined behaviour. -/
def Several.count (cfg : Cfg) (env : Env) : Several → Except Stuck (Except Reason Nat)
  | .array n => .ok (.ok n)
  | .vector len bound size =>
      match len.eval cfg env with
      | .error w => .error w
      | .ok n =>
          if bound.getD cfg.defaultMax / size < n then .ok (.error .excessiveLength)
          else if cfg.ptrdiffMax < n * size then .error .lengthError
          else .ok (.ok n)

end S2S.Spec
