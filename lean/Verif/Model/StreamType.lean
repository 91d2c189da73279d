import Verif.Model.Write
/-
Stream types: /repo/include/stream/stream_traits.hpp, the choice between the two
overloads of `read_native_impl` and `write_native_impl`
(/repo/include/field_read/read_impl.hpp 36-61, /repo/include/field_write/write_impl.hpp
15-30), the objects a field list makes them for, and what a run-time stream object does.
-/
namespace S2S

/-- What `!x` is for an expression `x`: no such expression, an expression usable as a
condition that is not of type `bool`, or a `bool`. -/
inductive Neg
  | illFormed
  | condition
  | bool
  deriving DecidableEq, Repr

/-- What the library can see of the type of an expression `s.read(..)` or `s.write(..)` on
a stream of type `T`: is it `T&`; does it convert to `std::istream&` (`std::ostream&` for
a write); what is its negation. -/
structure Ret where
  self : Bool
  std : Bool
  neg : Neg
  deriving DecidableEq, Repr

/-- What the library can see of one direction of a stream type. `probe`: the call the
concept asks for, `obj.read(char*, std::streamsize)` (stream_traits.hpp 18-21, 28-31) or
`obj.write(const char*, std::size_t)` (23-26, 33-36). `call`: the call that is made, with a
`std::size_t` in both directions (read_impl.hpp 57, write_impl.hpp 26). `array N`: the call
with a `std::array<char, N>` (read_impl.hpp 39, write_impl.hpp 18). `none`: ill-formed. -/
structure Way where
  probe : Option Ret
  call : Option Ret
  array : Nat → Option Ret

/-- A stream type. `tagged`: derives from `constexpr_stream` (stream_traits.hpp 49-52);
`boolOp`: `obj.operator bool()` is a `bool`; `neg`: what `!obj` is. -/
structure StreamTy where
  tagged : Bool
  boolOp : Bool
  neg : Neg
  reading : Way
  writing : Way

/-- `convertible_to_bool` (stream_traits.hpp 11-15). -/
def StreamTy.convertibleToBool (st : StreamTy) : Bool := st.boolOp && st.neg == .bool

/-- `readable`, `writeable` (stream_traits.hpp 54-58): one of the two forms. -/
def Way.usable (w : Way) : Bool :=
  match w.probe with
  | none => false
  | some r => r.std || r.self

/-- `input_stream_like`, `output_stream_like` (stream_traits.hpp 61-65) for the direction
`w`. -/
def StreamTy.like (st : StreamTy) (w : Way) : Bool :=
  (st.tagged || w.usable) && st.convertibleToBool

/-- The two overloads of `read_native_impl` (read_impl.hpp 36, 55) and of
`write_native_impl` (write_impl.hpp 15, 24). -/
inductive Overload
  | viaArray
  | viaPointer
  deriving DecidableEq, Repr

/-- The overloads whose constraint the stream type satisfies. -/
def StreamTy.candidates (st : StreamTy) (w : Way) : List Overload :=
  (if st.tagged then [.viaArray] else []) ++ (if w.usable then [.viaPointer] else [])

/-- Is the body of the overload well-formed for an object of `N` bytes? Its one demand on
the stream is the condition `!s.read(..)` (`!s.write(..)`). -/
def Way.body (w : Way) (N : Nat) : Overload → Bool
  | .viaArray => (w.array N).any fun r => r.neg ≠ .illFormed
  | .viaPointer => w.call.any fun r => r.neg ≠ .illFormed

/-- Overload resolution: neither constraint subsumes the other, so two candidates are
ambiguous. -/
def StreamTy.accepts (st : StreamTy) (w : Way) (N : Nat) : Bool :=
  match st.candidates w with
  | [o] => w.body N o
  | _ => false

/-- The scalar at the bottom of nested arrays. -/
def ElemTy.leaf : ElemTy → ScalarTy
  | .scalar t => t
  | .arr e _ => e.leaf

mutual
/-- `sizeof` of the objects `read_native_impl` is made for by the reader of a field: the
value itself (read_impl.hpp 63-66, 96-105, 107-120), for a container its elements
(85-89; a stream of raw pointers is handed the whole container, but its overload does not
look at the type). The readers of all alternatives of a union are made. -/
def Kind.readShapes : Kind → List Nat
  | .num t _ => [t.size]
  | .fbuf e n => [n * e.size]
  | .fstr n => [n + 1]
  | .vec e _ _ => [e.size]
  | .record fs => Field.readShapesAll fs
  | .arrRec fs _ => Field.readShapesAll fs
  | .vecRec fs _ _ _ => Field.readShapesAll fs
def Field.readShapes : Field → List Nat
  | .plain _ k _ => k.readShapes
  | .maybe _ k _ => k.readShapes
  | .union _ _ alts _ => Alt.readShapesAll alts
def Alt.readShapesAll : List Alt → List Nat
  | [] => []
  | .mk k _ :: alts => k.readShapes ++ Alt.readShapesAll alts
def Field.readShapesAll : List Field → List Nat
  | [] => []
  | f :: fs => f.readShapes ++ Field.readShapesAll fs
end

mutual
/-- `sizeof` of the objects `write_native_impl` is made for: in host order the value
(write_impl.hpp 32-35) or the elements of a container (37-51); in foreign order the scalars
at the bottom of a buffer (65-85), strings whole (67-68). -/
def Kind.writeShapes (foreign : Bool) : Kind → List Nat
  | .num t _ => [t.size]
  | .fbuf e n => if foreign then [e.leaf.size] else [n * e.size]
  | .fstr n => [n + 1]
  | .vec e _ _ => if foreign then [e.leaf.size] else [e.size]
  | .record fs => Field.writeShapesAll foreign fs
  | .arrRec fs _ => Field.writeShapesAll foreign fs
  | .vecRec fs _ _ _ => Field.writeShapesAll foreign fs
def Field.writeShapes (foreign : Bool) : Field → List Nat
  | .plain _ k _ => k.writeShapes foreign
  | .maybe _ k _ => k.writeShapes foreign
  | .union _ _ alts _ => Alt.writeShapesAll foreign alts
def Alt.writeShapesAll (foreign : Bool) : List Alt → List Nat
  | [] => []
  | .mk k _ :: alts => k.writeShapes foreign ++ Alt.writeShapesAll foreign alts
def Field.writeShapesAll (foreign : Bool) : List Field → List Nat
  | [] => []
  | f :: fs => f.writeShapes foreign ++ Field.writeShapesAll foreign fs
end

/-- Does `struct_cast_le`/`struct_cast_be` compile for the list and the stream type: the
concept in the signature (/repo/include/api/struct_cast.hpp), then every read the list
makes. That the list itself compiles is the business of `Verif/Model/Schema.lean` and the
models of the rules. -/
def StreamTy.reads (st : StreamTy) (fs : List Field) : Bool :=
  st.like st.reading && (Field.readShapesAll fs).all (st.accepts st.reading)

/-- The same for `stream_cast_le`/`stream_cast_be` (/repo/include/api/stream_cast.hpp). -/
def StreamTy.writes (st : StreamTy) (foreign : Bool) (fs : List Field) : Bool :=
  st.like st.writing && (Field.writeShapesAll foreign fs).all (st.accepts st.writing)

/-! ### Stream objects -/

/-- What one `s.read(dest, n)` does: the bytes it stores from `dest` on, whether what it
returns tests true, and the stream afterwards. -/
structure Got (σ : Type) where
  bytes : List Byte
  truth : Bool
  next : σ

/-- An input stream object: its `read`, and its own `operator bool`. -/
structure InDevice where
  State : Type
  read : State → Nat → Got State
  good : State → Bool

/-- The stream as the library sees it: the condition is on what `read` returns
(read_impl.hpp 39, 57), and the object read into was value-initialised (or `resize`d), so
what the stream does not store stays zero. -/
abbrev InDevice.seen (D : InDevice) : InStream where
  State := D.State
  read s n :=
    let r := D.read s n
    (if r.truth then some ((r.bytes ++ List.replicate n 0).take n) else none, r.next)
  len := by
    intro s n bs s' h
    simp only [Prod.mk.injEq] at h
    obtain ⟨h, _⟩ := h
    split at h
    · simp only [Option.some.injEq] at h
      subst h
      simp
    · simp at h

/-- An output stream object. -/
structure OutDevice where
  State : Type
  write : State → List Byte → Bool × State
  good : State → Bool

/-- The stream as the library sees it (write_impl.hpp 18, 26). -/
abbrev OutDevice.seen (D : OutDevice) : OutStream where
  State := D.State
  write := D.write

end S2S
