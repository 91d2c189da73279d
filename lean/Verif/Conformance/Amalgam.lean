import Verif.Props.Amalgam
/-
The headers of the library, as they include each other, and the order the shipped header has
them in (the `// Begin` lines of /repo/single_header/s2s.hpp). Read off the files by a
search for `#include "` under /repo/include; the numbers are positions in `repoFiles`.
-/
namespace S2S.Props
open S2S.Amalgam S2S.Spec

def repoFiles : List String := [
  "api/field_descriptors.hpp",
  "api/stream_cast.hpp",
  "api/struct_cast.hpp",
  "api/struct_field_list.hpp",
  "cast/stream_cast_impl.hpp",
  "cast/struct_cast_impl.hpp",
  "error/cast_error.hpp",
  "field/field.hpp",
  "field/field_accessor.hpp",
  "field/field_metafunctions.hpp",
  "field/field_options.hpp",
  "field/field_traits.hpp",
  "field/field_type_info.hpp",
  "field_compute/computation_from_fields.hpp",
  "field_compute/computation_from_fields_impl.hpp",
  "field_compute/computation_from_fields_traits.hpp",
  "field_list/field_list.hpp",
  "field_list/field_list_base.hpp",
  "field_list/field_list_metadata.hpp",
  "field_read/field_reader.hpp",
  "field_read/read_impl.hpp",
  "field_size/comptime_field_size_deduce.hpp",
  "field_size/field_size.hpp",
  "field_size/field_size_deduce.hpp",
  "field_validation/field_value_constraints.hpp",
  "field_write/derived_value.hpp",
  "field_write/field_writer.hpp",
  "field_write/write_impl.hpp",
  "lib/algorithms/algorithms.hpp",
  "lib/containers/fixed_string.hpp",
  "lib/containers/static_array.hpp",
  "lib/containers/static_map.hpp",
  "lib/containers/static_optional.hpp",
  "lib/containers/static_set.hpp",
  "lib/containers/static_vector.hpp",
  "lib/memory/address_manip.hpp",
  "lib/memory/bit.hpp",
  "lib/metaprog/fixed_string_list.hpp",
  "lib/metaprog/mp.hpp",
  "lib/metaprog/typelist.hpp",
  "lib/s2s_traits/type_traits.hpp",
  "s2s.hpp",
  "stream/byte_order.hpp",
  "stream/stream_traits.hpp",
  "type_deduction/if_else_ladder/clause.hpp",
  "type_deduction/if_else_ladder/clause_traits.hpp",
  "type_deduction/if_else_ladder/ladder.hpp",
  "type_deduction/if_else_ladder/ladder_impl.hpp",
  "type_deduction/if_else_ladder/ladder_traits.hpp",
  "type_deduction/switch/match_case.hpp",
  "type_deduction/switch/match_case_traits.hpp",
  "type_deduction/switch/switch.hpp",
  "type_deduction/switch/switch_impl.hpp",
  "type_deduction/switch/switch_traits.hpp",
  "type_deduction/type/type.hpp",
  "type_deduction/type/type_deduction_metafunctions.hpp",
  "type_deduction/type/type_deduction_traits.hpp",
  "type_deduction/type/type_impl.hpp",
  "type_deduction/utils/helper.hpp",
  "type_deduction/utils/type_condition_list.hpp",
  "type_deduction/utils/type_tags.hpp"]

def repoGraph : Graph Nat := [
  (0, [40, 7, 10, 17, 22, 23, 24, 56, 55]),
  (1, [6, 43, 4]),
  (2, [6, 43, 5]),
  (3, [28, 33, 11, 18, 16]),
  (4, [6, 16, 26]),
  (5, [6, 16, 19]),
  (6, []),
  (7, [29, 22, 24, 59]),
  (8, [29]),
  (9, [29, 22, 7]),
  (10, [22, 21, 24]),
  (11, [7, 22, 40]),
  (12, [38]),
  (13, [37]),
  (14, [37, 8, 16, 13]),
  (15, [8, 29, 13]),
  (16, [12, 11, 17, 18, 38]),
  (17, []),
  (18, [38, 34, 31, 33, 32, 29, 7, 22, 12, 54, 46]),
  (19, [11, 9, 21, 23, 6, 7, 57, 20]),
  (20, [6, 22, 40, 35, 42]),
  (21, [22]),
  (22, [8, 37]),
  (23, [8, 16, 22, 21, 13, 14]),
  (24, [39, 29, 40]),
  (25, [6, 7, 11, 16, 22, 21, 14]),
  (26, [11, 57, 9, 21, 23, 14, 6, 25, 27]),
  (27, [6, 40, 35, 42]),
  (28, []),
  (29, []),
  (30, []),
  (31, [34, 28]),
  (32, []),
  (33, [34, 28]),
  (34, []),
  (35, [43, 29]),
  (36, []),
  (37, [29]),
  (38, []),
  (39, []),
  (40, [29, 17]),
  (41, [8, 7, 16, 13, 6, 0, 3, 54, 51, 46, 60, 2, 1]),
  (42, [40]),
  (43, []),
  (44, [60, 15]),
  (45, [44]),
  (46, [45, 58, 59]),
  (47, [6, 16, 14, 46, 58]),
  (48, [46]),
  (49, [60]),
  (50, [49]),
  (51, [50, 58, 59]),
  (52, [6, 51, 58]),
  (53, [50, 51]),
  (54, [8]),
  (55, [38, 34, 33, 13, 46, 54]),
  (56, [53, 48, 54]),
  (57, [8, 6, 16, 14, 54, 47, 52]),
  (58, [6, 50, 45]),
  (59, []),
  (60, [40, 17, 22, 21, 24, 10])]

/-- The order of the shipped header. -/
def shippedOrder : List Nat := [
  29, 8, 37, 22, 39, 17, 40, 24, 59, 7, 11, 34, 28, 31, 33,
  32, 38, 12, 54, 6, 21, 10, 60, 49, 50, 13, 15, 44, 45, 58,
  46, 18, 16, 14, 23, 51, 53, 48, 56, 55, 0, 3, 9, 47, 52,
  57, 43, 35, 42, 20, 19, 5, 2, 25, 27, 26, 4, 1, 41]

/-- The shipped header is in the order the script gives. Sixteen frames are enough. -/
theorem shipped_order : fileOrder 16 repoGraph 41 = some shippedOrder := by decide +kernel

theorem mem_of_lookup {α β : Type} [DecidableEq α] {a : α} {b : β} : ∀ {l : List (α × β)},
    List.lookup a l = some b → (a, b) ∈ l
  | [], h => by cases h
  | (x, y) :: l, h => by
      rw [List.lookup_cons] at h
      split at h
      · rename_i e
        rw [beq_iff_eq] at e
        cases h
        subst e
        simp
      · exact List.mem_cons_of_mem _ (mem_of_lookup h)

/-- Every header of the library includes only headers the shipped one has before it: there
are no cycles, as `C109_header` asks. -/
theorem repo_noCycle : NoCycle repoGraph.incl 41 := by
  have key : ∀ p ∈ repoGraph, ∀ b ∈ p.2, shippedOrder.idxOf b < shippedOrder.idxOf p.1 := by decide +kernel
  have one : ∀ a b, repoGraph.incl a b → shippedOrder.idxOf b < shippedOrder.idxOf a := by
    intro a b h
    unfold Graph.incl Graph.get at h
    cases hl : List.lookup a repoGraph with
    | none => rw [hl] at h; cases h
    | some is =>
        rw [hl] at h
        exact key _ (mem_of_lookup hl) b h
  have brings : ∀ a b, Brings repoGraph.incl a b → shippedOrder.idxOf b < shippedOrder.idxOf a := by
    intro a b h
    induction h with
    | direct h => exact one _ _ h
    | step h _ ih => exact Nat.lt_trans ih (one _ _ h)
  exact fun a _ h => Nat.lt_irrefl _ (brings a a h)

/-- Two headers of the directory are not in the shipped one: nothing includes them. -/
example : (List.range 61).filter (fun f => !decide (f ∈ shippedOrder)) =
    [30, 36] := by decide +kernel

end S2S.Props
