import Verif.Spec.Format
/-
Which inputs are refused, and with which error: from the schema and the bytes alone, in
the terms of the wire format.
-/
namespace S2S.Spec

/-- A value of kind `k` beside siblings with the values `env`. -/
def IsKind (cfg : Cfg) (env : Env) (k : Kind) (v : Val) : Prop :=
  FitsKind cfg k v ∧ OkKind k v ∧ ShapedKind cfg env k v

def IsField (cfg : Cfg) (env : Env) (f : Field) (v : Val) : Prop :=
  FitsField cfg f v ∧ OkField f v ∧ ShapedField cfg env f v

/-- With a stream for constant evaluation elements are read one by one: those that are
there have to be values of their type before the first that is not is missed. -/
def WholeElements (cfg : Cfg) (e : ElemTy) (inp : List Byte) : Prop :=
  cfg.constexprStream = true → ∃ (vs : List Val) (tail : List Byte), inp = vs.flatMap (wireElem cfg.wire e) ++ tail ∧
    (∀ v ∈ vs, ElemFits e v) ∧ tail.length < e.size

/-- Fewer than `n` records are there; what follows them is `R`. -/
def NextRecord (V : List Val → Prop) (W : List Val → List Byte) (R : List Byte → Prop) (n : Nat)
    (inp : List Byte) : Prop :=
  ∃ (vs : List Val) (tail : List Byte), inp = vs.flatMap (recordBytes W) ++ tail ∧ vs.length < n ∧
    (∀ v ∈ vs, ∃ ws, v = .seq ws ∧ V ws) ∧ R tail

mutual
/-- `inp` is refused with reason `r` where a value of the kind is expected; `env`: the
values of the siblings. -/
def KindRefused (cfg : Cfg) (env : Env) : Kind → List Byte → Reason → Prop
  | .num t w, inp, r => w ≤ t.size ∧ inp.length < w ∧ r = .bufferExhaustion
  | .fbuf e n, inp, r => inp.length < n * e.size ∧ r = .bufferExhaustion
  | .fstr n, inp, r => inp.length < n + 1 ∧ r = .bufferExhaustion
  | .vec e len bound, inp, r => ∃ n, len.eval cfg env = .ok n ∧
      (bound.getD cfg.defaultMax < n * e.size ∧ r = .excessiveLength ∨
       StorageFits cfg bound e.size n ∧ inp.length < n * e.size ∧ WholeElements cfg e inp ∧
         r = .bufferExhaustion)
  | .record fs, inp, r => ∃ id, FieldsRefused cfg [] [] fs inp r id
  | .arrRec fs n, inp, r =>
      NextRecord (Valid cfg fs) (wire cfg fs) (fun tail => ∃ id, FieldsRefused cfg [] [] fs tail r id) n inp
  | .vecRec fs len bound sz, inp, r => ∃ n, len.eval cfg env = .ok n ∧
      (bound.getD cfg.defaultMax < n * sz ∧ r = .excessiveLength ∨
       StorageFits cfg bound sz n ∧
         NextRecord (Valid cfg fs) (wire cfg fs)
           (fun tail => ∃ id, FieldsRefused cfg [] [] fs tail r id) n inp)
termination_by structural k => k
/-- The same where a field of a list is expected. -/
def FieldRefused (cfg : Cfg) (env : Env) : Field → List Byte → Reason → Prop
  | .plain _ k c, inp, r => KindRefused cfg env k inp r ∨
      r = .validationFailure ∧ ∃ v tail, inp = wireKind cfg.wire k v ++ tail ∧ IsKind cfg env k v ∧
        c.check v = .ok false
  | .maybe _ k p, inp, r => p.eval env = .ok true ∧ KindRefused cfg env k inp r
  | .union _ d alts c, inp, r => d.eval env = .ok none ∧ r = .typeDeductionFailure ∨
      ∃ i, d.eval env = .ok (some i) ∧ (AltsRefused cfg env alts i inp r ∨
        r = .validationFailure ∧ ∃ v tail, inp = wireAlts cfg.wire alts i v ++ tail ∧
          (FitsAlts cfg alts i v ∧ OkAlts alts i v ∧ ShapedAlts cfg env alts i v) ∧
          c.check (.var i v) = .ok false)
termination_by structural f => f
/-- Where alternative `i` is expected. -/
def AltsRefused (cfg : Cfg) (env : Env) : List Alt → Nat → List Byte → Reason → Prop
  | .mk k c :: _, 0, inp, r => KindRefused cfg env k inp r ∨
      r = .validationFailure ∧ ∃ v tail, inp = wireKind cfg.wire k v ++ tail ∧ IsKind cfg env k v ∧
        c.check v = .ok false
  | _ :: alts, i + 1, inp, r => AltsRefused cfg env alts i inp r
  | [], _, _, _ => False
termination_by structural alts => alts
/-- Where the fields that follow `pre` are expected, which have been read as `vs`: the
first of them that is not there is `id`. -/
def FieldsRefused (cfg : Cfg) (pre : List Field) (vs : List Val) :
    List Field → List Byte → Reason → String → Prop
  | [], _, _, _ => False
  | f :: fs, inp, r, id => f.id = id ∧ FieldRefused cfg (envOf pre vs) f inp r ∨
      ∃ v tail, inp = wireField cfg.wire f v ++ tail ∧ IsField cfg (envOf pre vs) f v ∧
        FieldsRefused cfg (pre ++ [f]) (vs ++ [v]) fs tail r id
termination_by structural fs => fs
end

/-- The input is refused with reason `r` at field `id` of the list: the fields before it
are there, and it is not. -/
def Refused (cfg : Cfg) (fs : List Field) (inp : List Byte) (r : Reason) (id : String) : Prop :=
  ∃ pre f post vs tail, fs = pre ++ f :: post ∧ f.id = id ∧ Valid cfg pre vs ∧
    inp = wire cfg pre vs ++ tail ∧ FieldRefused cfg (envOf pre vs) f tail r

end S2S.Spec
