/-
`range`, `is_in_open_range` and `is_in_closed_range`
(`field_validation/field_value_constraints.hpp` 128-185).

No object of these types can exist in a program that compiles: the constructor of `range`
(line 133) has a `static_assert` on its parameters, which are not constant expressions.
What is modelled is what their call operators say. Values are integers; the comparisons are
between values of one type.
-/
namespace S2S

/-- field_value_constraints.hpp 129-136 -/
structure Range where
  a : Int
  b : Int
  deriving DecidableEq, Repr

/-- What the constructor asserts (134). -/
def Range.Proper (r : Range) : Prop := r.a < r.b

instance (r : Range) : Decidable r.Proper := inferInstanceAs (Decidable (_ < _))

/-- What `std::sort` with `r1.a < r2.a` (149-151, 171-173) may leave: a permutation, sorted
by the starts. Ranges that start together may come in either order. -/
def SortedRanges (rs order : List Range) : Prop :=
  order.Perm rs ∧ order.Pairwise fun r1 r2 => r1.a ≤ r2.a

/-- `std::lower_bound` with the comparison `p`: undefined (`none`) unless the sequence is partitioned
by it ([lower.bound]), and then the first position where it does not hold. -/
def lowerBound (p : Range → Bool) (rs : List Range) : Option Nat :=
  if rs.Pairwise fun r1 r2 => p r2 = true → p r1 = true then some (rs.findIdx fun r => !p r)
  else none

/-- field_value_constraints.hpp 154-162 and 176-184, which differ in the last test only. -/
def inRanges (test : Range → Int → Bool) (order : List Range) (v : Int) : Option Bool :=
  match lowerBound (fun r => decide (r.b < v)) order with
  | none => none
  | some i =>
    -- `it != begin && (it == end || it->a > value)`
    let back : Bool := i != 0 &&
      match order[i]? with
      | none => true
      | some r => decide (r.a > v)
    let i := if back then i - 1 else i
    -- `it != end && …`
    match order[i]? with
    | none => some false
    | some r => some (test r v)

/-- field_value_constraints.hpp 154-162 -/
def inOpenRange : List Range → Int → Option Bool :=
  inRanges fun r v => decide (r.a < v) && decide (v < r.b)

/-- field_value_constraints.hpp 176-184 -/
def inClosedRange : List Range → Int → Option Bool :=
  inRanges fun r v => decide (r.a ≤ v) && decide (v ≤ r.b)

end S2S
