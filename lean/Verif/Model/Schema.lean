import Verif.Model.Val
import Verif.Model.Stream
/-
Schemas: the descriptors of /repo/include/api/field_descriptors.hpp and the tags
of /repo/include/type_deduction/type_tags (as_trivial, as_vec, ...), as data.

Callables given by the user (predicates, computations, constraint functors) are
arbitrary total functions of the values of the fields they name. Names are the
field ids cut at the first NUL, which is what `as_sv` and `failed_at` make of
them (/repo/include/api/struct_field_list.hpp 23-26).
-/
namespace S2S

/-- Elements of buffers: scalars and (nested) fixed arrays of them
(`is_fixed_array`, `is_c_array`, `is_vector_like` in
/repo/include/lib/s2s_traits/type_traits.hpp 49-90, 152-164). -/
inductive ElemTy
  | scalar (t : ScalarTy)
  | arr (e : ElemTy) (n : Nat)
  deriving DecidableEq, Repr

/-- `sizeof` of an element. -/
def ElemTy.size : ElemTy → Nat
  | .scalar t => t.size
  | .arr e n => n * e.size

/-- A predicate over siblings: `eval_bool_from_fields<callable, ids...>`
(/repo/include/field_compute/computation_from_fields.hpp), used by `parse_if` and
the branches of a ladder. -/
structure Pred where
  ids : List String
  fn : List Val → Bool

/-- An integral computation over siblings: `compute_t<callable, R, ids...>`. The
conversion to `R` is applied where it is used. -/
structure Calc where
  ids : List String
  fn : List Val → Int

/-- `variable_size_like` sizes (/repo/include/field_size/field_size.hpp 63-72):
`len_from_field<id>` and `len_from_fields<callable, ids...>`. -/
inductive LenSpec
  | fromField (id : String)
  | computed (c : Calc)

/-- The six comparisons of /repo/include/field_validation/field_value_constraints.hpp 43-104. -/
inductive CmpOp
  | eq | ne | lt | gt | le | ge
  deriving DecidableEq, Repr

/-- Constraints (/repo/include/field_validation/field_value_constraints.hpp).

* `cmp op t k`: `eq{k}`, `neq{k}`, ... with an integral operand of type `t`;
* `anyOf t ks`: `any_of{ks...}` over operands of type `t`;
* `arrCmp eq v`: `eq{v}`/`neq{v}` over a `std::array`;
* `strCmp eq s`: `eq{s}`/`neq{s}` over a `fixed_string` (all its characters,
  terminator included);
* `over u w f`: any other use of a library constraint (`Model/Compare`). `f` is what
  calling it does, nothing if that is undefined, `w` then says why; `u` is the operand
  of `eq` as a value of the field's type;
* `user f`: any other functor. -/
inductive Constraint
  | none
  | cmp (op : CmpOp) (t : ScalarTy) (k : Int)
  | anyOf (t : ScalarTy) (ks : List Int)
  | arrCmp (eq : Bool) (v : Val)
  | strCmp (eq : Bool) (s : List Int)
  | over (u : Option Val) (w : Stuck) (f : Val → Option Bool)
  | user (f : Val → Bool)

/-- The three type deduction guides (/repo/include/type_deduction/type/type.hpp).
`matchField id t labels`: `type<match_field<id>, type_switch<match_case<label, ..>...>>`,
where `t` is the type of the field `id` and each label carries its own type;
`matchCompute comp t labels`: the same over a computation returning `t`;
`ladder preds`: `type<type_if_else<branch<pred, ..>...>>`. -/
inductive Deducer
  | matchField (id : String) (t : ScalarTy) (labels : List (ScalarTy × Int))
  | matchCompute (comp : Calc) (t : ScalarTy) (labels : List (ScalarTy × Int))
  | ladder (preds : List Pred)

mutual
/-- What a field holds and how its extent is determined.

* `num t w`: `basic_field<_, T, w_B>`, `magic_number`, `as_trivial`;
* `fbuf e n`: `fixed_array_field`, `c_arr_field`, `c_str_field`,
  `magic_byte_array`, `as_fixed_arr` (size exactly `n * sizeof(e)`);
* `fstr n`: `fixed_string_field`, `magic_string`, `as_fixed_string`
  (`n + 1` characters);
* `vec e len bound`: `vec_field`, `as_vec`, and `str_field`, `as_string` with one
  byte elements; `bound` is the declared `max_bytes`, if any;
* `record fs`: `struct_field`, `as_struct`;
* `arrRec fs n`: `array_of_records`, `as_arr_of_records`;
* `vecRec fs len bound sz`: `vector_of_records`, `as_vec_of_records`; `sz` is
  `sizeof` of the in-memory record, which the ceiling is measured in. -/
inductive Kind
  | num (t : ScalarTy) (width : Nat)
  | fbuf (e : ElemTy) (n : Nat)
  | fstr (n : Nat)
  | vec (e : ElemTy) (len : LenSpec) (bound : Option Nat)
  | record (fs : List Field)
  | arrRec (fs : List Field) (n : Nat)
  | vecRec (fs : List Field) (len : LenSpec) (bound : Option Nat) (sz : Nat)
/-- A field of a list: `field`, `maybe_field`, `union_field`
(/repo/include/field/field.hpp 15-30, 68-76, 104-121). The base of a `maybe` has
no constraint: the alias admits `no_variance_field_like` bases only
(/repo/include/api/field_descriptors.hpp 89-91). -/
inductive Field
  | plain (id : String) (k : Kind) (c : Constraint)
  | maybe (id : String) (k : Kind) (pred : Pred)
  | union (id : String) (d : Deducer) (alts : List Alt) (c : Constraint)
/-- A union alternative: a type tag with its constraint. -/
inductive Alt
  | mk (k : Kind) (c : Constraint)
end

def Field.id : Field → String
  | .plain i _ _ => i
  | .maybe i _ _ => i
  | .union i _ _ _ => i

/-- `constraint_checker` of the field as the folds over a list see it:
`maybe_field` has none (/repo/include/field/field.hpp 35-38). -/
def Field.constraint : Field → Constraint
  | .plain _ _ c => c
  | .maybe _ _ _ => .none
  | .union _ _ _ c => c

abbrev Alt.kind : Alt → Kind
  | .mk k _ => k
abbrev Alt.constraint : Alt → Constraint
  | .mk _ c => c

/-- `fixed_size_like` sizes: the field is written and read by
`write_field`/`read_field<fixed_sized_field_like>`. -/
def Kind.isFixed : Kind → Bool
  | .num _ _ => true
  | .fbuf _ _ => true
  | .fstr _ => true
  | _ => false

/-- The length of a container, if the kind is one. -/
def Kind.lenSpec? : Kind → Option LenSpec
  | .vec _ len _ => some len
  | .vecRec _ len _ _ => some len
  | _ => none

/-- `len_obligation` (/repo/include/field_write/derived_value.hpp 20-30): the id a
kind with a `len_from_field` size takes its length from. -/
def Kind.lenTarget? (k : Kind) : Option String :=
  match k.lenSpec? with
  | some (.fromField id) => some id
  | _ => Option.none

/-! ### Default values: what default construction leaves in a field
(`field_type value{}`, /repo/include/field/field.hpp 29). -/

def ElemTy.dflt : ElemTy → Val
  | .scalar _ => .int 0
  | .arr e n => .seq (List.replicate n e.dflt)

mutual
def Kind.dflt : Kind → Val
  | .num _ _ => .int 0
  | .fbuf e n => .seq (List.replicate n e.dflt)
  | .fstr n => .seq (List.replicate (n + 1) (.int 0))
  | .vec _ _ _ => .seq []
  | .record fs => .seq (Field.dflts fs)
  | .arrRec fs n => .seq (List.replicate n (.seq (Field.dflts fs)))
  | .vecRec _ _ _ _ => .seq []
def Field.dflt : Field → Val
  | .plain _ k _ => k.dflt
  | .maybe _ _ _ => .absent
  | .union _ _ alts _ => .var 0 (Alt.dfltFirst alts)
def Field.dflts : List Field → List Val
  | [] => []
  | f :: fs => f.dflt :: Field.dflts fs
def Alt.dfltFirst : List Alt → Val
  | [] => .absent
  | .mk k _ :: _ => k.dflt
end

/-- The values of a list of fields, by name. -/
def envOf : List Field → List Val → Env
  | f :: fs, v :: vs => (envOf fs vs).set f.id v
  | _, _ => Env.empty

/-- A default-constructed list, by name. -/
def dfltEnv (fs : List Field) : Env := envOf fs (Field.dflts fs)

/-! ### Evaluation of constraints -/

/-- `std::string_view{s.data()}`: the characters before the first NUL. `none`:
there is no NUL among them, so `strlen` runs out of the object. -/
def cstr? : List Int → Option (List Int)
  | [] => Option.none
  | c :: cs => if c = 0 then some [] else (cstr? cs).map (c :: ·)

/-- The characters of a `fixed_string` value. -/
def Val.chars? : List Val → Option (List Int)
  | [] => some []
  | .int c :: vs => (Val.chars? vs).map (c :: ·)
  | _ :: _ => Option.none

def CmpOp.holds : CmpOp → Int → Int → Bool
  | .eq, a, b => a == b
  | .ne, a, b => a != b
  | .lt, a, b => a < b
  | .gt, a, b => a > b
  | .le, a, b => a ≤ b
  | .ge, a, b => a ≥ b

/-- `constraint_checker(value)`. The functors take `const T&` with `T` the type of
the *operand*, so an integral field value is converted to that type first. -/
def Constraint.check : Constraint → Val → Except Stuck Bool
  | .none, _ => .ok true
  | .cmp op t k, .int x => .ok (op.holds (t.conv x) k)
  | .cmp _ _ _, _ => .error .illTyped
  | .anyOf t ks, .int x => .ok (ks.any fun k => t.conv x == k)
  | .anyOf _ _, _ => .error .illTyped
  | .arrCmp eq v, w => .ok ((Val.eqb w v) == eq)
  | .strCmp eq s, .seq vs =>
      match Val.chars? vs with
      | Option.none => .error .illTyped
      | some cs =>
        -- fixed_string.hpp 28-34: both sides become string_views via strlen
        match cstr? cs, cstr? s with
        | some a, some b => .ok ((a == b) == eq)
        | _, _ => .error .unterminated
  | .strCmp _ _, _ => .error .illTyped
  | .over _ w f, v =>
      match f v with
      | some b => .ok b
      | Option.none => .error w
  | .user f, v => .ok (f v)

/-! ### Evaluation of callables and of type deduction -/

/-- `compute_impl` for a predicate
(/repo/include/field_compute/computation_from_fields_impl.hpp 52-63). -/
def Pred.eval (p : Pred) (env : Env) : Except Stuck Bool :=
  match env.getAll p.ids with
  | some vs => .ok (p.fn vs)
  | Option.none => .error .illTyped

/-- The callable's result before conversion to `R`. -/
def Calc.eval (c : Calc) (env : Env) : Except Stuck Int :=
  match env.getAll c.ids with
  | some vs => .ok (c.fn vs)
  | Option.none => .error .illTyped

/-- `deduce_field_size` for variable sizes
(/repo/include/field_size/field_size_deduce.hpp 17-38): both forms end in a
conversion to `std::size_t`. -/
def LenSpec.eval (cfg : Cfg) (env : Env) : LenSpec → Except Stuck Nat
  | .fromField id =>
      match env id with
      | some (.int x) => .ok (cfg.toSz x)
      | _ => .error .illTyped
  | .computed c =>
      match c.eval env with
      | .ok x => .ok (cfg.toSz x)
      | .error w => .error w

/-- Integral promotion: everything smaller than `int` (4 bytes) becomes `int`. -/
def ScalarTy.promote : ScalarTy → ScalarTy
  | .bool => .int 4 true
  | .int b s => if b < 4 then .int 4 true else .int b s

/-- The usual arithmetic conversions: the type `a == b` is computed in. -/
def ScalarTy.common (a b : ScalarTy) : ScalarTy :=
  match a.promote, b.promote with
  | .int m sm, .int n sn =>
      if sm = sn then .int (max m n) sm
      else if sm then (if m > n then .int m true else .int n false)
      else (if n > m then .int n true else .int m false)
  | x, _ => x

/-- `v == match_case::value` (/repo/include/type_deduction/switch/switch_impl.hpp 17):
built-in comparison of integers of possibly different types. -/
def labelMatches (t : ScalarTy) (x : Int) (label : ScalarTy × Int) : Bool :=
  (t.common label.1).conv x == (t.common label.1).conv label.2

/-- `evaluate_switch` (/repo/include/type_deduction/switch/switch_impl.hpp 22-53): the
fold stops at the first case that matches (`operator|` in
/repo/include/type_deduction/utils/helper.hpp 16-18). -/
def switchIdx (t : ScalarTy) (x : Int) : List (ScalarTy × Int) → Option Nat
  | [] => Option.none
  | l :: ls => if labelMatches t x l then some 0 else (switchIdx t x ls).map (· + 1)

/-- `evaluate_ladder` (/repo/include/type_deduction/if_else_ladder/ladder_impl.hpp 31-63).
Branches after the first match are not evaluated. -/
def ladderIdx (env : Env) : List Pred → Except Stuck (Option Nat)
  | [] => .ok Option.none
  | p :: ps =>
      match p.eval env with
      | .error w => .error w
      | .ok true => .ok (some 0)
      | .ok false =>
          match ladderIdx env ps with
          | .error w => .error w
          | .ok o => .ok (o.map (· + 1))

/-- `deduce_type` (/repo/include/type_deduction/type/type_impl.hpp 19-46). `none` is
`type_deduction_failure`. The matched field may be a `maybe_field`: then
`v == match_case::value` (/repo/include/type_deduction/switch/switch_impl.hpp 17)
compares a `std::optional`, which is equal to no label when it is empty and is
compared by its value otherwise. Such a union can be read; writing one is refused at
compile time (the `static_assert` in `is_derived_target`, derived_value.hpp 222-223). -/
def Deducer.eval (env : Env) : Deducer → Except Stuck (Option Nat)
  | .matchField id t labels =>
      match env id with
      | some (.int x) => .ok (switchIdx t x labels)
      | some (.present (.int x)) => .ok (switchIdx t x labels)
      | some .absent => .ok none
      | _ => .error .illTyped
  | .matchCompute comp t labels =>
      match comp.eval env with
      | .ok x => .ok (switchIdx t (t.conv x) labels)
      | .error w => .error w
  | .ladder preds => ladderIdx env preds

/-- `bound_in_bytes` (/repo/include/field_size/field_size.hpp 124-135). -/
def ceilingOf (cfg : Cfg) (bound : Option Nat) : Nat := bound.getD cfg.defaultMax

end S2S
