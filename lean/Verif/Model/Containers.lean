import Verif.Model.Meta
/-
The containers of constant evaluation as the objects they are, and the loops over them
with their counters: /repo/include/lib/containers/*.hpp,
/repo/include/lib/algorithms/algorithms.hpp; and the lists of types and names,
/repo/include/lib/metaprog/typelist.hpp, fixed_string_list.hpp. `Model/Meta` has them as
lists; `Props/Containers` shows that nothing is lost by that.

As in `Model/Meta`, a constant evaluation that is no constant expression is `none`.
`Ev` is what the evaluator brings: `unsigned` has `u` values, `std::size_t` has `sz`, and
evaluation gives up a loop after `fuel` rounds.
-/
namespace S2S.Ct

structure Ev where
  u : Nat
  sz : Nat
  fuel : Nat

/-! ### loops -/

/-- `for(auto i = 0u; i < bound; ++i) ...`: the counter is an `unsigned`, the bound a
`std::size_t`. A round goes on with a new state, returns, or is undefined. -/
def loop (u bound : Nat) (body : Nat → σ → Option (σ ⊕ ρ)) : Nat → Nat → σ → Option (σ ⊕ ρ)
  | 0, _, _ => none
  | fuel + 1, i, s =>
      if i < bound then
        match body i s with
        | none => none
        | some (.inr r) => some (.inr r)
        | some (.inl s') => loop u bound body fuel ((i + 1) % u) s'
      else some (.inl s)

/-! ### static_vector.hpp, static_array.hpp -/

/-- `static_vector<T, N>`: `T values[N]{}` and `vec_size` (static_vector.hpp 34-36). The
length of `values` is `N`. A `std::array`, or a `static_array` (static_array.hpp), is one
that is full. -/
structure SVec (α : Type) where
  values : List α
  size : Nat
  deriving DecidableEq

/-- `static_vector()` (static_vector.hpp 12); `d`: the value-initialized element. -/
def SVec.new (n : Nat) (d : α) : SVec α := ⟨List.replicate n d, 0⟩

/-- `push_back` (static_vector.hpp 17-20). -/
def SVec.push (v : SVec α) (a : α) : Option (SVec α) :=
  if v.size < v.values.length then some ⟨v.values.set v.size a, v.size + 1⟩ else none

/-- `static_vector(entries...)` (static_vector.hpp 13-16). -/
def SVec.pushAll (v : SVec α) : List α → Option (SVec α)
  | [] => some v
  | a :: as => (v.push a).bind fun v' => v'.pushAll as

/-- `operator[]` (static_vector.hpp 21-26): of the array, whatever `vec_size` is. -/
def SVec.at (v : SVec α) (i : Nat) : Option α := v.values[i]?

/-- Assigning through `operator[]` (static_vector.hpp 24-26). -/
def SVec.assign (v : SVec α) (i : Nat) (a : α) : Option (SVec α) :=
  if i < v.values.length then some ⟨v.values.set i a, v.size⟩ else none

/-- What `begin()` to `end()` runs over (static_vector.hpp 27-28). -/
def SVec.items (v : SVec α) : List α := v.values.take v.size

def SVec.capacity (v : SVec α) : Nat := v.values.length
def SVec.empty (v : SVec α) : Bool := v.size == 0

/-- `std::array`, or `static_array(entries...)` (static_array.hpp 14-22). -/
def SVec.full (l : List α) : SVec α := ⟨l, l.length⟩

/-! ### algorithms.hpp -/

/-- `find_index_if` (algorithms.hpp 18-26). -/
def findIf (ev : Ev) (p : α → Bool) (v : SVec α) : Option Nat :=
  match loop ev.u v.size (fun i (_ : Unit) => (v.at i).map fun a => if p a then .inr i else .inl ())
      ev.fuel 0 () with
  | none => none
  | some (.inr i) => some i
  | some (.inl _) => some v.size

/-- `find_index` (algorithms.hpp 8-16). -/
def find [BEq α] (ev : Ev) (v : SVec α) (a : α) : Option Nat := findIf ev (· == a) v

/-- `equal_ranges` (algorithms.hpp 28-37). -/
def equal [BEq α] (ev : Ev) (v w : SVec α) : Option Bool :=
  if v.size ≠ w.size then some false
  else
    match loop ev.u v.size (fun i (_ : Unit) => (v.at i).bind fun x => (w.at i).map fun y =>
        if x != y then .inr false else .inl ()) ev.fuel 0 () with
    | none => none
    | some (.inr b) => some b
    | some (.inl _) => some true

/-- `swap_objects` of two elements (algorithms.hpp 39-44). -/
def SVec.swap (v : SVec α) (i j : Nat) : Option (SVec α) :=
  (v.at i).bind fun a => (v.at j).bind fun b => (v.assign i b).bind fun v' => v'.assign j a

/-- One round of the inner loop of `sort_ranges` (algorithms.hpp 49-51); `j + 1` is an
`unsigned`. -/
def sortRound (ev : Ev) (lt : α → α → Bool) (j : Nat) (v : SVec α) : Option (SVec α ⊕ Empty) :=
  (v.at ((j + 1) % ev.u)).bind fun b => (v.at j).bind fun a =>
    if lt b a then (v.swap j ((j + 1) % ev.u)).map .inl else some (.inl v)

/-- The inner loop (algorithms.hpp 48-52), its bound in `std::size_t`. -/
def sortInner (ev : Ev) (lt : α → α → Bool) (v : SVec α) : Option (SVec α ⊕ Empty) :=
  loop ev.u ((v.size + ev.sz - 1) % ev.sz) (sortRound ev lt) ev.fuel 0 v

/-- `sort_ranges` (algorithms.hpp 46-54). -/
def sort (ev : Ev) (lt : α → α → Bool) (v : SVec α) : Option (SVec α) :=
  match loop ev.u v.size (fun _ w => sortInner ev lt w) ev.fuel 0 v with
  | some (.inl w) => some w
  | _ => none

/-! ### static_set.hpp, static_map.hpp -/

/-- `static_set::insert` (static_set.hpp 26-30). -/
def setInsert [BEq α] (ev : Ev) (v : SVec α) (a : α) : Option (SVec α) :=
  (find ev v a).bind fun i => if i = v.size then v.push a else some v

def setInsertAll [BEq α] (ev : Ev) (v : SVec α) : List α → Option (SVec α)
  | [] => some v
  | a :: as => (setInsert ev v a).bind fun v' => setInsertAll ev v' as

/-- `static_set<T, N>` of a range (static_set.hpp 20-25). -/
def setOf [BEq α] (ev : Ev) (n : Nat) (d : α) (as : List α) : Option (SVec α) :=
  setInsertAll ev (.new n d) as

/-- One entry in `generate_map` (static_map.hpp 66-74). -/
def mapInsert (ev : Ev) (v : SVec (String × β)) (e : String × β) : Option (SVec (String × β)) :=
  (findIf ev (fun t => t.1 == e.1) v).bind fun i =>
    if i = v.size then v.push e else (v.at i).bind fun t => v.assign i (t.1, e.2)

def mapInsertAll (ev : Ev) (v : SVec (String × β)) : List (String × β) → Option (SVec (String × β))
  | [] => some v
  | e :: es => (mapInsert ev v e).bind fun v' => mapInsertAll ev v' es

/-- `static_map<sv, V, N>(entries)` (static_map.hpp 46-47, 62-77). As in `Model/Meta` an
initializer with fewer than `N` entries leaves the rest value-initialized, and one with
more is ill-formed. -/
def mapOf (ev : Ev) (lt : String → String → Bool) (n : Nat) (d : β) (es : List (String × β)) :
    Option (SVec (String × β)) :=
  if n < es.length then none
  else (mapInsertAll ev (.new n ("", d)) (es ++ List.replicate (n - es.length) ("", d))).bind
    (sort ev fun a b => lt a.1 b.1)

/-- `static_map::operator[]` (static_map.hpp 48-53); the inner `Option` is the
`std::optional`. -/
def mapGet (ev : Ev) (v : SVec (String × β)) (key : String) : Option (Option β) :=
  (findIf ev (fun t => t.1 == key) v).bind fun i =>
    if i ≠ v.size then (v.at i).map fun t => some t.2 else some none

/-- `flatten` (field_list_metadata.hpp 88-97). -/
def flatten (n : Nat) (vs : List (SVec String)) : Option (SVec String) :=
  (SVec.new n "").pushAll (vs.flatMap SVec.items)

/-- `remove_duplicates` (field_list_metadata.hpp 202-208). -/
def removeDuplicates (ev : Ev) (n : Nat) (v : SVec String) : Option (SVec String) :=
  (setOf ev n "" v.items).bind fun s => (SVec.new n "").pushAll s.items

/-- `are_field_ids_unique` (struct_field_list.hpp 17-21). -/
def fieldIdsUnique (ev : Ev) (ids : List String) : Option Bool :=
  (setOf ev ids.length "" ids).bind (equal ev (.full ids))

/-! ### static_optional.hpp -/

/-- `static_optional<T>` (static_optional.hpp 12-14). -/
structure SOpt (α : Type) where
  value : α
  hasValue : Bool
  deriving DecidableEq

/-- From a `std::optional` (static_optional.hpp 22-27); `d`: the value-initialized `T`. -/
def SOpt.ofOption (d : α) : Option α → SOpt α
  | none => ⟨d, false⟩
  | some a => ⟨a, true⟩

/-- `operator==(static_nullopt_t&&)` (static_optional.hpp 39-43). -/
def SOpt.eqNullopt (o : SOpt α) : Bool := if o.hasValue then true else false

/-- `a == b` of two of them. A class that declares an `operator==` of its own does not get
the one that comes with a defaulted `operator<=>` (static_optional.hpp 38-39), so both are
converted with `operator bool` (static_optional.hpp 33) and the built-in `==` compares
those. -/
def SOpt.eqOpt (a b : SOpt α) : Bool := a.hasValue == b.hasValue

/-- `lookup_field` (field_list_metadata.hpp 328-332). -/
def lookupField (ev : Ev) (d : β) (v : SVec (String × β)) (name : String) : Option (SOpt β) :=
  (mapGet ev v name).map (SOpt.ofOption d)

/-! ### typelist.hpp -/

/-- `typelist::any_of_v<list<ts...>, t>` (typelist.hpp 25-39): of the partial
specializations that match, the most specialized. -/
def anyOf [DecidableEq T] (t : T) : List T → Bool
  | [] => false
  | u :: rest => if t = u then true else false || anyOf t rest

/-- `typelist::all_are_same_v<list<ts...>>` (typelist.hpp 41-66). The last specialization is
less specialized than the others and never chosen. -/
def allSame [DecidableEq T] : List T → Bool
  | [] => true
  | [_] => true
  | t :: u :: rest => decide (t = u) && allSame (u :: rest)

/-- `typelist::front_t` (typelist.hpp 68-82); `none`: `null`. -/
def front : List T → Option T
  | [] => none
  | t :: _ => some t

/-! ### fixed_string_list.hpp -/

/-- `size_v` (fixed_string_list.hpp 38-52). -/
def nameCount : List String → Nat
  | [] => 0
  | _ :: tail => 1 + nameCount tail

/-- `get<idx, key, count, fixed_string_list<...>>` (fixed_string_list.hpp 65-77). -/
def nameGet (idx key : Nat) : List String → Option String
  | [] => none
  | head :: tail => if idx = key then some head else nameGet (idx + 1) key tail

/-- `pop` (fixed_string_list.hpp 82-99). -/
def namePop : Nat → List String → List String
  | _, [] => []
  | 0, head :: tail => head :: tail
  | count + 1, _ :: tail => namePop count tail

/-- A template argument of `field_names_of`: a name, or a `with_fields` value. -/
inductive NameArg
  | id (s : String)
  | list (l : List String)
  deriving DecidableEq

/-- `fixed_string_list<ids...>`: every argument has to be a name. -/
def allNames : List NameArg → Option (List String)
  | [] => some []
  | .id s :: as => (allNames as).map (s :: ·)
  | .list _ :: _ => none

/-- `field_names_of<ids...>` (fixed_string_list.hpp 108-124). -/
def namesOf : List NameArg → Option (List String)
  | [.list l] => some l
  | as => allNames as

end S2S.Ct
