import Verif.Model.Decl
/-
Which casts can be instantiated, with sizes of any kind.

`Decl.casts` (Model/Decl) is exact for the sizes the descriptors give to records and to arrays and
vectors of records: none to the first two, a length to the third. Spelled by hand, as
`field<"r", struct_field_list<...>, len_from_field<"n">, ...>`, they can have others. Here is what
the readers and writers make of those.
-/
namespace S2S.Decl

/-- A record or an array of records: read without a look at its size
(/repo/include/field_read/field_reader.hpp 113-132, 170-316). -/
def Ty.ignoresSize : Ty → Bool
  | .fieldList _ => true
  | .array (.fieldList _) _ => true
  | _ => false

/-- Nothing of that name is written as a fixed-sized field: no field, no optional, no alternative
of a union. -/
def noFixed (ctx : List Decl) (id : String) : Bool :=
  match ctx.find? fun d => d.id == id with
  | some (.field _ t s _ _) => !(t.fieldContainable && s.isFixed)
  | some (.maybe _ t s _ _ _) => !(t.fieldContainable && s.isFixed)
  | some (.union _ _ ks _) => ks.all fun k => !(k.ty.fieldContainable && k.size.isFixed)
  | some (.other _) => false
  | none => true

/-- The size of a field, or of what is `inside` an optional or a union, in a list `ctx`.

A length from a field. Reading, a record and an array of records ignore it; anything else converts
it to `std::size_t` (/repo/include/field_size/field_size_deduce.hpp 17-27). Writing, it is as for
containers (`lenOk`), arrays of records having a `size()`; but a record has none. A record that is
a field of its own makes a slot of the field named, whose value is derived from the `size()` of
the record (/repo/include/field_write/derived_value.hpp 276-282): that does not compile. Inside an
optional or a union, `size()` is called where something of fixed size with that name is written
(170-205, 118-136).

Another size, or none. A vector of records is read with `deduce_field_size<...>{}(field_list)`
(field_reader.hpp 147), which only lengths have; it is written without a look at its size unless
that is a computed one (/repo/include/field_write/field_writer.hpp 163-178). -/
def sizeOk (use : Use) (inside : Bool) (ctx : List Decl) : Ty → Size → Bool
  | .fieldList _, .var (.fromField id) => !use.write || inside && noFixed ctx id
  | t, .var (.fromField id) =>
      if use.write then (if inside then noFixedBuffer ctx id else isNumber ctx id)
      else t.ignoresSize || isNumber ctx id
  | .vector (.fieldList _), s => use.write || s.isVariable
  | _, _ => true

mutual
/-- Numbers, buffers and strings as in `castsTy`; for records and for arrays and vectors of records
the cast of the list (`read_field<struct_field_like>`, `write_nested`). -/
def instTy (use : Use) : Ty → Size → Bool
  | .fieldList ds, _ => instDecls use ds ds
  | .array (.fieldList ds) _, _ => instDecls use ds ds
  | .vector (.fieldList ds), _ => instDecls use ds ds
  | t, s => castsTy use t s
def instDecl (use : Use) (ctx : List Decl) : Decl → Bool
  | .field _ t s _ _ => instTy use t s && sizeOk use false ctx t s
  | .maybe _ t s _ _ _ => instTy use t s && sizeOk use true ctx t s && t.isStorable
  | .union _ g ks _ => guideOk use ctx g && instCases use ctx ks
  | .other _ => false
def instCases (use : Use) (ctx : List Decl) : List Case → Bool
  | [] => true
  | .mk _ t s _ _ :: ks =>
      instTy use t s && sizeOk use true ctx t s && t.isStorable && instCases use ctx ks
def instDecls (use : Use) (ctx : List Decl) : List Decl → Bool
  | [] => true
  | d :: ds => instDecl use ctx d && instDecls use ctx ds
end

/-- Can `struct_cast`/`stream_cast` be instantiated for the list, whatever the sizes in it? -/
def inst (use : Use) (ds : List Decl) : Bool := instDecls use ds ds

end S2S.Decl
