import Verif.Model.Write
/-
What the library computes about a schema while it is compiled:
/repo/include/lib/algorithms/algorithms.hpp, /repo/include/lib/containers/*.hpp,
/repo/include/field_list/field_list_metadata.hpp,
/repo/include/field_list/field_list.hpp, /repo/include/api/struct_field_list.hpp,
/repo/include/field/field_options.hpp, /repo/include/lib/metaprog/mp.hpp.

All of it runs in constant evaluation, where undefined behaviour (an access out of
bounds, `->` on an empty `std::optional`) is a compile error. Such an evaluation is
`none` here: the program is rejected.

Loop counters are `unsigned` in the source; ranges of 2^32 elements and more are not
modelled.
-/
namespace S2S.Meta

/-! ### algorithms.hpp -/

/-- `find_index_if` (algorithms.hpp 18-26): the size if there is none. -/
def findIndexIf (p : α → Bool) : List α → Nat
  | [] => 0
  | a :: l => if p a then 0 else findIndexIf p l + 1

/-- `find_index` (algorithms.hpp 8-16). -/
def findIndex [BEq α] (l : List α) (a : α) : Nat := findIndexIf (· == a) l

/-- The loop of `equal_ranges` (algorithms.hpp 31-34), `n` steps from index `i`. -/
def equalFrom [BEq α] (xs ys : List α) (i : Nat) : Nat → Option Bool
  | 0 => some true
  | n + 1 =>
      match xs[i]?, ys[i]? with
      | some x, some y => if x != y then some false else equalFrom xs ys (i + 1) n
      | _, _ => none

/-- `equal_ranges` (algorithms.hpp 28-37). -/
def equalRanges [BEq α] (xs ys : List α) : Option Bool :=
  if xs.length ≠ ys.length then some false else equalFrom xs ys 0 xs.length

/-- One step of the inner loop of `sort_ranges`: compare and swap neighbours
(algorithms.hpp 49-51). -/
def sortStep (lt : α → α → Bool) (l : List α) (j : Nat) : Option (List α) :=
  match l[j]?, l[j + 1]? with
  | some a, some b => some (if lt b a then (l.set j b).set (j + 1) a else l)
  | _, _ => none

/-- The inner loop, `n` steps from index `j` (algorithms.hpp 48-52). -/
def sortPass (lt : α → α → Bool) (l : List α) (j : Nat) : Nat → Option (List α)
  | 0 => some l
  | n + 1 => (sortStep lt l j).bind fun l' => sortPass lt l' (j + 1) n

/-- The outer loop, `n` rounds (algorithms.hpp 47-53). -/
def sortLoop (lt : α → α → Bool) (l : List α) : Nat → Option (List α)
  | 0 => some l
  | n + 1 => (sortPass lt l 0 (l.length - 1)).bind fun l' => sortLoop lt l' n

/-- `sort_ranges` (algorithms.hpp 46-54). On an empty range the bound of the inner loop
would wrap, but the outer loop makes no round. -/
def sortRanges (lt : α → α → Bool) (l : List α) : Option (List α) := sortLoop lt l l.length

/-! ### static_vector, static_set, static_map -/

/-- `static_vector::push_back` (static_vector.hpp 17-20), capacity `n`. -/
def pushBack (n : Nat) (l : List α) (a : α) : Option (List α) :=
  if l.length < n then some (l ++ [a]) else none

/-- A sequence of `push_back`s (static_vector.hpp 13-16). -/
def pushAll (n : Nat) (l : List α) : List α → Option (List α)
  | [] => some l
  | a :: as => (pushBack n l a).bind fun l' => pushAll n l' as

/-- `static_set::insert` (static_set.hpp 26-30). -/
def setInsert [BEq α] (n : Nat) (s : List α) (a : α) : Option (List α) :=
  if findIndex s a = s.length then pushBack n s a else some s

/-- `static_set` of the elements of a range (static_set.hpp 20-25). -/
def setOf [BEq α] (n : Nat) (s : List α) : List α → Option (List α)
  | [] => some s
  | a :: as => (setInsert n s a).bind fun s' => setOf n s' as

/-- One entry of `static_map::generate_map` (static_map.hpp 66-74): a new key is
appended, a known one gets the new value. -/
def mapInsert (n : Nat) (m : List (String × β)) (e : String × β) : Option (List (String × β)) :=
  let i := findIndexIf (fun t => t.1 == e.1) m
  if i = m.length then pushBack n m e
  else m[i]?.map fun t => m.set i (t.1, e.2)

def mapInsertAll (n : Nat) (m : List (String × β)) : List (String × β) → Option (List (String × β))
  | [] => some m
  | e :: es => (mapInsert n m e).bind fun m' => mapInsertAll n m' es

/-- `static_map(entries)` (static_map.hpp 46-47, 62-77). The parameter is an array of
exactly `n` pairs: an initializer with fewer entries leaves the rest value-initialized,
that is an empty key and a value-initialized value (`dflt`); one with more is
ill-formed. `lt`: `operator<` of the keys. -/
def mapOf (lt : String → String → Bool) (n : Nat) (dflt : β) (es : List (String × β)) :
    Option (List (String × β)) :=
  if n < es.length then none
  else (mapInsertAll n [] (es ++ List.replicate (n - es.length) ("", dflt))).bind
    (sortRanges fun a b => lt a.1 b.1)

/-- `static_map::operator[]` (static_map.hpp 48-53). -/
def mapGet (m : List (String × β)) (key : String) : Option β :=
  let i := findIndexIf (fun t => t.1 == key) m
  if i ≠ m.length then m[i]?.map Prod.snd else none

/-! ### field_list_metadata.hpp -/

/-- `max_field_count` (field_list_metadata.hpp 22). -/
def maxFields : Nat := 256
/-- `max_dep_count_per_struct` (field_list_metadata.hpp 19-21). -/
def maxDeps : Nat := 64

/-- `field_type_info` (/repo/include/field/field_type_info.hpp). -/
structure FieldInfo where
  typeId : Nat
  occursAt : Nat
  deriving DecidableEq, Repr

/-- The table of a list of ids, given the type id of each field
(`generate_field_table`, field_list_metadata.hpp 274-281). -/
def fieldTable (lt : String → String → Bool) (ids : List (String × Nat)) :
    Option (List (String × FieldInfo)) :=
  mapOf lt maxFields ⟨0, 0⟩ (ids.zipIdx.map fun e => (e.1.1, ⟨e.1.2, e.2⟩))

/-- `flatten` (field_list_metadata.hpp 88-97): of at most 64 vectors (the array
`deps[64]` in 104 and 220), into one. -/
def flatten (vecs : List (List String)) : Option (List String) :=
  if maxDeps < vecs.length then none else pushAll maxDeps [] vecs.flatten

/-- `remove_duplicates` (field_list_metadata.hpp 202-208). -/
def removeDuplicates (v : List String) : Option (List String) :=
  (setOf maxDeps [] v).bind fun s => pushAll maxDeps [] s

/-- `extract_length_dependencies` of a `field` (field_list_metadata.hpp 41-76). -/
def lenDepsOfKind (k : Kind) : Option (List String) :=
  match k.lenSpec? with
  | none => some []
  | some (.fromField id) => pushAll maxDeps [] [id]
  | some (.computed c) => pushAll maxDeps [] c.ids

/-- The bound a container declares. -/
def boundOf : Kind → Option Nat
  | .vec _ _ b => b
  | .vecRec _ _ b _ => b
  | _ => none

def lenDepsOfAlts : List Alt → Option (List (List String))
  | [] => some []
  | a :: alts => (lenDepsOfKind a.kind).bind fun d => (lenDepsOfAlts alts).map (d :: ·)

/-- `extract_length_dependencies` (field_list_metadata.hpp 38-119). There is no
specialization for a `maybe_field` over a container with a declared bound (78-86 leaves
the bound to its default), so such a list does not compile. -/
def lengthDeps : Field → Option (List String)
  | .plain _ k _ => lenDepsOfKind k
  | .maybe _ k _ => if (boundOf k).isSome then none else lenDepsOfKind k
  | .union _ _ alts _ => (lenDepsOfAlts alts).bind flatten

/-- `extract_parse_dependencies` (field_list_metadata.hpp 129-147). -/
def parseDeps : Field → Option (List String)
  | .maybe _ _ p => pushAll maxDeps [] p.ids
  | _ => some []

def predDeps : List Pred → Option (List (List String))
  | [] => some []
  | p :: ps => (pushAll maxDeps [] p.ids).bind fun d => (predDeps ps).map (d :: ·)

/-- `extract_type_deduction_dependencies` (field_list_metadata.hpp 150-226). -/
def typeDeps : Field → Option (List String)
  | .union _ (.matchField id _ _) _ _ => pushAll maxDeps [] [id]
  | .union _ (.matchCompute c _ _) _ _ => pushAll maxDeps [] c.ids
  | .union _ (.ladder ps) _ _ => ((predDeps ps).bind flatten).bind removeDuplicates
  | _ => some []

def depEntries (deps : Field → Option (List String)) : List Field → Option (List (String × List String))
  | [] => some []
  | f :: fs => (deps f).bind fun d => (depEntries deps fs).map ((f.id, d) :: ·)

/-- The three dependency tables (field_list_metadata.hpp 283-305). -/
def depTable (lt : String → String → Bool) (deps : Field → Option (List String)) (fs : List Field) :
    Option (List (String × List String)) :=
  (depEntries deps fs).bind (mapOf lt maxFields [])

/-- The inner loop of `is_dependencies_resolved` (field_list_metadata.hpp 368-373). -/
def depsBefore (table : List (String × FieldInfo)) (at' : Nat) : List String → Option Bool
  | [] => some true
  | d :: ds =>
      match mapGet table d with
      | none => none
      | some info => if info.occursAt > at' then some false else depsBefore table at' ds

/-- `is_dependencies_resolved` (field_list_metadata.hpp 362-377). -/
def dependenciesResolved (table : List (String × FieldInfo)) :
    List (String × List String) → Option Bool
  | [] => some true
  | (name, ds) :: es =>
      match mapGet table name with
      | none => none
      | some info =>
          match depsBefore table info.occursAt ds with
          | some true => dependenciesResolved table es
          | r => r

/-! ### struct_field_list.hpp -/

/-- `are_field_ids_unique` (struct_field_list.hpp 17-21). -/
def fieldIdsUnique (ids : List String) : Option Bool :=
  (setOf ids.length [] ids).bind (equalRanges ids)

/-- `has_unique_field_ids` (struct_field_list.hpp 28-29). Of no ids at all, `std::array{...}`
has no element type, and the constraint is not satisfied. -/
def hasUniqueFieldIds (ids : List String) : Bool :=
  !ids.isEmpty && fieldIdsUnique ids == some true

/-- `size_dependencies_resolved` and its two siblings (field_list_metadata.hpp 381-400). -/
def resolvedFor (lt : String → String → Bool) (tid : Field → Nat) (deps : Field → Option (List String))
    (fs : List Field) : Option Bool :=
  (fieldTable lt (fs.map fun f => (f.id, tid f))).bind fun t =>
  (depTable lt deps fs).bind fun d => dependenciesResolved t d

/-- `struct_field_list<fields...>` is well formed (struct_field_list.hpp 28-61), as far as
ids and dependencies go: the fields are descriptors (`all_field_like`) by construction
of `Field`. `tid`: the type id of each field. -/
def accepts (lt : String → String → Bool) (tid : Field → Nat) (fs : List Field) : Bool :=
  hasUniqueFieldIds (fs.map Field.id) &&
  resolvedFor lt tid lengthDeps fs == some true &&
  resolvedFor lt tid parseDeps fs == some true &&
  resolvedFor lt tid typeDeps fs == some true

/-! ### field_list.hpp -/

/-- `length_derived_field_ids` (field_list_metadata.hpp 310-313). -/
def lengthDerivedIds (fs : List Field) : Option (List String) :=
  (pushAll maxDeps [] (lenDerivedIds fs)).bind removeDuplicates

/-- `discriminant_derived_field_ids` (field_list_metadata.hpp 315-318). -/
def discriminantDerivedIds (fs : List Field) : Option (List String) :=
  (pushAll maxDeps [] (discDerivedIds fs)).bind removeDuplicates

/-- What `operator[]` gives on an object that is not const. -/
inductive Access
  | mutable
  | readOnly
  deriving DecidableEq, Repr

/-- `operator[]` on a non-const object (field_list.hpp 56-106): the field it gives access
to, and how. Three overloads; the third is for const objects, but viable on others
too if no better one is. `none`: no overload, or the conversion of the object to the
type found does not exist. -/
def subscript (lt : String → String → Bool) (tid : Field → Nat) (fs : List Field) (id : String) :
    Option (Field × Access) :=
  (fieldTable lt (fs.map fun f => (f.id, tid f))).bind fun table =>
  (lengthDerivedIds fs).bind fun lens =>
  (discriminantDerivedIds fs).bind fun discs =>
  (mapGet table id).bind fun info =>
  (fs.find? fun f => tid f == info.typeId).bind fun f =>
  let length := lens.contains id
  let disc := discs.contains id
  let frozen := f.isFrozen
  if !(length || disc) && !frozen then some (f, .mutable)
  else if (disc || frozen) && !length then some (f, .readOnly)
  else if !length then some (f, .readOnly)
  else none

/-! ### field_options.hpp -/

/-- How an option classifies for a field of some type: `size_option_like`,
`constraint_option_like`, `bound_pack_option_like` (field_options.hpp 35-56), each a
predicate of the option's type alone. -/
structure OptKinds (O : Type) where
  isSize : O → Bool
  isConstraint : O → Bool
  isBound : O → Bool

/-- The three values a descriptor takes from its options. -/
structure Resolved (O : Type) where
  size : O
  constraint : O
  bound : O
  deriving DecidableEq, Repr

/-- `size_option_count` and its two siblings (field_options.hpp 66-76). -/
def optionCount (p : O → Bool) : List O → Nat
  | [] => 0
  | o :: os => (if p o then 1 else 0) + optionCount p os

/-- `size_in_pack` and its two siblings (field_options.hpp 90-133). -/
def inPack (p : O → Bool) (dflt : O) : List O → O
  | [] => dflt
  | o :: os => if p o then o else inPack p dflt os

/-- `resolved_options` with the assertions of its base `pack_options`
(field_options.hpp 80-88, 137-142). -/
def resolvedOptions (K : OptKinds O) (d : Resolved O) (opts : List O) : Option (Resolved O) :=
  if optionCount K.isSize opts ≤ 1 ∧ optionCount K.isConstraint opts ≤ 1 ∧
      optionCount K.isBound opts ≤ 1 then
    some ⟨inPack K.isSize d.size opts, inPack K.isConstraint d.constraint opts,
      inPack K.isBound d.bound opts⟩
  else none

/-- A descriptor (api/field_descriptors.hpp 27-103): each option meets the placeholder
constraint of the pack (`admits`), and the resolved values the `requires` clause
(`fine`: `field_fits_to_underlying_type` for `basic_field`, a variable size for the
containers, nothing for the others). -/
def describe (K : OptKinds O) (d : Resolved O) (admits : O → Bool) (fine : Resolved O → Bool)
    (opts : List O) : Option (Resolved O) :=
  if opts.all admits then (resolvedOptions K d opts).filter fine else none

/-- The options the library itself has; constraints are told apart by a number, and
`constraint` stands for functors that can be called on the field's type. -/
inductive Opt
  /-- `N_B` -/
  | bytes (n : Nat)
  /-- `len_from_field`, `len_from_fields` -/
  | variableSize (id : String)
  | sizeDontCare
  | noConstraint
  | constraint (n : Nat)
  | maxBytes (n : Nat)
  | useDefaultBound
  deriving DecidableEq, Repr

/-- Which is which (field_size.hpp 102-121, 138-200; field_options.hpp 35-56). -/
def libraryKinds : OptKinds Opt where
  isSize | .bytes _ | .variableSize _ | .sizeDontCare => true | _ => false
  isConstraint | .noConstraint | .constraint _ => true | _ => false
  isBound | .maxBytes _ | .useDefaultBound => true | _ => false

/-- The defaults (field_options.hpp 90-93, 105-108, 120-123) for a type of `n` bytes. -/
def libraryDefaults (n : Nat) : Resolved Opt := ⟨.bytes n, .noConstraint, .useDefaultBound⟩

/-- `basic_field` over a type of `n` bytes (field_descriptors.hpp 27-29). -/
def basicField (n : Nat) : List Opt → Option (Resolved Opt) :=
  describe libraryKinds (libraryDefaults n)
    (fun o => libraryKinds.isSize o || libraryKinds.isConstraint o)
    (fun r => match r.size with | .bytes w => decide (w ≤ n) | _ => false)

/-- `vec_field` (field_descriptors.hpp 64-69), `n`: `sizeof(std::vector<T>)`. -/
def vecField (n : Nat) : List Opt → Option (Resolved Opt) :=
  describe libraryKinds (libraryDefaults n)
    (fun o => libraryKinds.isSize o || libraryKinds.isConstraint o || libraryKinds.isBound o)
    (fun r => match r.size with | .variableSize _ => true | _ => false)

/-! ### mp.hpp -/

/-- `type_id_value<T>::gen<left, right>` (mp.hpp 25-40): a binary search for the first
id nobody has, in `std::size_t` with `sz` values. `taken`: is `get(type_id_key<i>)`
defined? `none`: recursion deeper than `fuel`. -/
def genId (sz : Nat) (taken : Nat → Bool) (left right : Nat) : Nat → Option Nat
  | 0 => none
  | fuel + 1 =>
      if left ≥ right then some (if taken left then left + 1 else left)
      else
        let mid := left + (right - left) / 2
        if taken mid then genId sz taken (mid + 1) right fuel
        else genId sz taken left ((mid + sz - 1) % sz) fuel

/-- The types registered so far, each with its id. -/
abbrev Registry (T : Type) := List (T × Nat)

def Registry.taken (r : Registry T) (i : Nat) : Bool := r.any fun e => e.2 == i

/-- `type_id<T>` (mp.hpp 42-51): instantiating `type_id_value<T>` picks an id and defines
`get(type_id_key<id>)`; the class is instantiated once. A second definition for the same
id is an error. `depth`: how deep templates may nest. -/
def register [BEq T] (sz depth : Nat) (r : Registry T) (t : T) : Option (Registry T × Nat) :=
  match r.find? fun e => e.1 == t with
  | some e => some (r, e.2)
  | none =>
      (genId sz r.taken 0 1023 depth).bind fun i =>
      if r.taken i then none else some (r ++ [(t, i)], i)

/-- A sequence of uses of `type_id`, and the ids they give. -/
def registerAll [BEq T] (sz depth : Nat) (r : Registry T) : List T → Option (Registry T × List Nat)
  | [] => some (r, [])
  | t :: ts =>
      (register sz depth r t).bind fun (r', i) =>
      (registerAll sz depth r' ts).map fun (r'', is) => (r'', i :: is)

/-- `type_of<id>` (mp.hpp 53-54). -/
def Registry.typeOf (r : Registry T) (i : Nat) : Option T := (r.find? fun e => e.2 == i).map Prod.fst

end S2S.Meta
