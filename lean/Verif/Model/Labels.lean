import Verif.Model.Compare
/-
Labels of any arithmetic type.

`match_case<auto v, T>` (/repo/include/type_deduction/switch/match_case.hpp 9-13) takes a value
of every type a template parameter can have, floating-point numbers included. `Model/Schema`
has labels that are integers; here are all of arithmetic type. An enumerator of an unscoped
enumeration is compared and converted as an integer of the type under it, so it is an integer
here; one of a scoped enumeration is not comparable with a field that is an integer and does
not compile. A label of class type has the `operator==` and the conversion its class gives it;
they are evaluated by the compiler for the label and, the comparison, at run time for the field:
it is taken to be a function of the value, as all user code here is.

The library uses a label of a union that switches on a field in two places only: the reader
compares it with the field (`v == match_case::value`, switch_impl.hpp 17), the writer converts
it to `std::size_t` (`value_at`, derived_value.hpp 65-68). So what such a union does is given by
two unions of `Model/Schema`, one for each direction.
-/
namespace S2S

/-- The value of a `match_case`: an integer, the floating-point number of so many bytes with
these bits, or an object, with the integers it is equal to and the one it converts to, if any. -/
inductive Label
  | int (t : ScalarTy) (v : Int)
  | float (bytes : Nat) (bits : Int)
  | object (equals : Int → Bool) (converts : Option Int)

/-- `v == match_case::value` for a field `v` of type `t` (switch_impl.hpp 17): by the usual
arithmetic conversions an integer is converted to the floating-point type. -/
def Label.matched (R : Compare.Rounding) (t : ScalarTy) (x : Int) : Label → Bool
  | .int lt lv => labelMatches t x (lt, lv)
  | .float n k => (R.conv n (.fin (x * Compare.one))).cmp (Compare.real n k) == some .eq
  | .object f _ => f x

/-- The integer `static_cast<std::size_t>(match_values)` starts from (derived_value.hpp 66,
type_deduction_metafunctions.hpp 104). A floating-point number loses its fraction; if what is
left is not a `std::size_t` the conversion is undefined, so there is no such union: the values
are template arguments, and the conversion is evaluated by the compiler. -/
def Label.stored (cfg : Cfg) : Label → Option (ScalarTy × Int)
  | .int lt lv => some (lt, lv)
  | .float n k =>
      ((Compare.real n k).toInt (.int cfg.szBytes false)).map fun z => (.int cfg.szBytes false, z)
  | .object _ c => c.map fun z => (.int cfg.szBytes false, cfg.toSz z)

/-- All of them. -/
def storedLabels (cfg : Cfg) : List Label → Option (List (ScalarTy × Int))
  | [] => some []
  | l :: ls =>
      match l.stored cfg, storedLabels cfg ls with
      | some a, some as => some (a :: as)
      | _, _ => none

/-- The comparison as a predicate of the field. The model's fields that are switched on are
integers; what a predicate says of other values does not matter. -/
def Label.asPred (R : Compare.Rounding) (sid : String) (t : ScalarTy) (l : Label) : Pred :=
  ⟨[sid], fun
    | [.int x] => l.matched R t x
    | _ => false⟩

/-- `variance` over `match_field<sid>`, as it is read: the fold over the cases
(switch_impl.hpp 22-35) stops at the first that compares equal, as the one over the branches of
a ladder does. For labels that are integers this is `Deducer.matchField` (C127). -/
def readUnion (R : Compare.Rounding) (id sid : String) (t : ScalarTy) (ls : List Label)
    (alts : List Alt) (c : Constraint) : Field :=
  .union id (.ladder (ls.map (Label.asPred R sid t))) alts c

/-- The same, as it is written. `as` are the stored labels. -/
def writeUnion (id sid : String) (t : ScalarTy) (as : List (ScalarTy × Int)) (alts : List Alt)
    (c : Constraint) : Field :=
  .union id (.matchField sid t as) alts c

end S2S
