import Verif.Model.Read
import Verif.Spec.Format
/-
A header and then one of several bodies, on one stream.
-/
namespace S2S.Spec

/-- The alternatives of a union of bodies. -/
def bodyAlts (bodies : List (List Field)) : List Alt := bodies.map fun b => .mk (.record b) .none

/-- The header, with the bodies as a union at its end. -/
def enveloped (hdr : List Field) (id : String) (d : Deducer) (bodies : List (List Field)) : List Field :=
  hdr ++ [.union id d (bodyAlts bodies) .none]

/-- What a program without the union does: read the header, choose by it, read that body from
the same stream. Errors in the body are reported under the name of the union. -/
def byHand (cfg : Cfg) (hdr : List Field) (id : String) (d : Deducer) (bodies : List (List Field))
    (S : InStream) (s : S.State) : Outcome (Except CastError (List Val)) × S.State :=
  match (structCast cfg hdr).runOn S s with
  | (.done (.ok us), s1) =>
      match d.eval (envOf hdr us) with
      | .error w => (.stuck w, s1)
      | .ok none => (.done (.error ⟨.typeDeductionFailure, id⟩), s1)
      | .ok (some i) =>
          match (structCast cfg (bodies.getD i [])).runOn S s1 with
          | (.done (.ok ws), s2) => (.done (.ok (us ++ [.var i (.seq ws)])), s2)
          | (.done (.error e), s2) => (.done (.error ⟨e.reason, id⟩), s2)
          | (.stuck w, s2) => (.stuck w, s2)
  | r => r

end S2S.Spec
