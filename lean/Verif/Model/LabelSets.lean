import Verif.Model.Labels
import Verif.Model.Decl
/-
Which lists of labels of any type `variance` takes.
-/
namespace S2S

/-- `has_unique_match_values(extract_match_values<type_deducer>::value)`
(/repo/include/type_deduction/type/type_deduction_metafunctions.hpp 84-129) for labels of any
type, for a switch over a field and for one over a computed value: all are converted to
`std::size_t` and put into a set. `none`: one of the conversions is no constant expression, so
the requirement of `variance` (/repo/include/api/field_descriptors.hpp 97-100) cannot be
evaluated. For integers: `Decl.uniqueMatchValues`. -/
def uniqueLabels (cfg : Cfg) (ls : List Label) : Option Bool :=
  (storedLabels cfg ls).bind fun as =>
    let vs := as.map fun a => cfg.toSz a.2
    (Meta.setOf ls.length [] vs).bind (Meta.equalRanges vs)

end S2S
