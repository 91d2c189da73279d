import Verif.Spec.Unsent
/-
Where a write runs out of room. Defined from the schema and the values alone.
-/
namespace S2S.Spec

/-- What the field puts out on a stream that takes everything: its encoding if it is sent,
and if not, what comes before it fails. -/
def FieldBytes (cfg : Cfg) (all : List Field) (vals : List Val) (f : Field) (v : Val)
    (q : List Byte) : Prop :=
  (∃ u, SentField cfg all vals f v u ∧ q = wireField cfg.wire f u) ∨
    ∃ r, FieldUnsent cfg all vals r f v q

/-- With room for `n` bytes it is the field `id` that does not fit any more: the fields
before it are sent and fit, and there is not enough room left for what it puts out. -/
def Overflows (cfg : Cfg) (fs : List Field) (vs : List Val) (n : Nat) (id : String) : Prop :=
  ∃ pre f post vpre v vpost us q, fs = pre ++ f :: post ∧ vs = vpre ++ v :: vpost ∧
    f.id = id ∧ SentFields cfg fs vs pre vpre us ∧ FieldBytes cfg fs vs f v q ∧
    (wireFields cfg.wire pre us).length ≤ n ∧ n < (wireFields cfg.wire pre us).length + q.length

end S2S.Spec
