import Verif.Model.Bytes
/-
Run-time values held by fields.
-/
namespace S2S

/-- The value of a field.

* `int`: integers and `bool`;
* `seq`: `std::array`, C array, `std::vector`, `std::string`, `fixed_string`
  (element by element; characters as unsigned bytes), and a record
  (`struct_field_list_impl`), field by field in declaration order;
* `absent`, `present v`: `std::optional`;
* `var i v`: a `std::variant` holding alternative `i`; one without a value has an `i` that
  is no alternative (`variant_npos`), and any `v`. -/
inductive Val
  | int (x : Int)
  | seq (vs : List Val)
  | absent
  | present (v : Val)
  | var (i : Nat) (v : Val)
  deriving Inhabited

mutual
/-- Equality of values (`operator==` of `std::array`, memberwise). -/
def Val.eqb : Val → Val → Bool
  | .int x, .int y => x == y
  | .seq xs, .seq ys => Val.eqbs xs ys
  | .absent, .absent => true
  | .present x, .present y => Val.eqb x y
  | .var i x, .var j y => i == j && Val.eqb x y
  | _, _ => false
def Val.eqbs : List Val → List Val → Bool
  | [], [] => true
  | x :: xs, y :: ys => Val.eqb x y && Val.eqbs xs ys
  | _, _ => false
end

mutual
theorem Val.eqb_iff : (x y : Val) → (Val.eqb x y = true ↔ x = y)
  | .int x, y => by cases y <;> simp [Val.eqb]
  | .seq xs, y => by
      cases y with
      | seq ys => simp [Val.eqb, Val.eqbs_iff xs ys]
      | _ => simp [Val.eqb]
  | .absent, y => by cases y <;> simp [Val.eqb]
  | .present x, y => by
      cases y with
      | present y => simp [Val.eqb, Val.eqb_iff x y]
      | _ => simp [Val.eqb]
  | .var i x, y => by
      cases y with
      | var j y => simp [Val.eqb, Val.eqb_iff x y]
      | _ => simp [Val.eqb]
theorem Val.eqbs_iff : (xs ys : List Val) → (Val.eqbs xs ys = true ↔ xs = ys)
  | [], ys => by cases ys <;> simp [Val.eqbs]
  | x :: xs, ys => by
      cases ys with
      | nil => simp [Val.eqbs]
      | cons y ys => simp [Val.eqbs, Val.eqb_iff x y, Val.eqbs_iff xs ys]
end

instance : DecidableEq Val := fun x y =>
  decidable_of_iff (Val.eqb x y = true) (Val.eqb_iff x y)

/-- `.size()` of a container. `none`: the value is no container. -/
def Val.size? : Val → Option Nat
  | .seq vs => some vs.length
  | _ => none

/-- What a name resolves to: the current value of the field so named
(`field_value_of`, /repo/include/field_list/field_list.hpp 112-118). -/
abbrev Env := String → Option Val

def Env.empty : Env := fun _ => none

/-- Assigning the value of one field. -/
def Env.set (env : Env) (id : String) (v : Val) : Env :=
  fun i => if i = id then some v else env i

/-- The values of several fields, in order; `none` if one does not exist. -/
def Env.getAll (env : Env) : List String → Option (List Val)
  | [] => some []
  | i :: is =>
    match env i, env.getAll is with
    | some v, some vs => some (v :: vs)
    | _, _ => none

end S2S
