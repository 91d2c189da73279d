import Verif.Model.Read
/-
What a read does to memory besides `resize`: the copies.

`struct_cast_impl` returns `R(field_list)` (/repo/include/cast/struct_cast_impl.hpp 49),
a copy of the list it has read; the reader of a nested list stores that with
`field.value = *res` (/repo/include/field_read/field_reader.hpp 188), a second copy; the
reader of an optional stores `base_field.value` (215), a copy. The elements of arrays and
vectors of records (110) and the alternatives of unions (251) are moved.

Counted are the bytes inside `std::vector`s and `std::string`s. Simplified: a copy
allocates as many bytes as the container holds, a moved-from container holds none, and
what a failed read has allocated is not given back one by one. Not counted: copies that
callables of the user make of their arguments.
-/
namespace S2S

/-- A computation that reads, with everything that changes how much memory is in use:
`grow n` is `resize` to `n` bytes, `copy n` a copy of containers of `n` bytes, `drop n`
the destruction of such. -/
inductive Mem (α : Type) where
  | ret (a : α)
  | stuck (w : Stuck)
  | read (n : Nat) (k : Option (List Byte) → Mem α)
  | grow (bytes : Nat) (k : Mem α)
  | copy (bytes : Nat) (k : Mem α)
  | drop (bytes : Nat) (k : Mem α)

namespace Mem

def bind : Mem α → (α → Mem β) → Mem β
  | ret a, f => f a
  | stuck w, _ => stuck w
  | read n k, f => read n fun o => (k o).bind f
  | grow b k, f => grow b (k.bind f)
  | copy b k, f => copy b (k.bind f)
  | drop b k, f => drop b (k.bind f)

/-- A read without copies. -/
def ofRd : Rd α → Mem α
  | .ret a => ret a
  | .stuck w => stuck w
  | .read n k => read n fun o => ofRd (k o)
  | .alloc b k => grow b (ofRd k)

/-- The read, its copies forgotten. -/
def erase : Mem α → Rd α
  | ret a => .ret a
  | stuck w => .stuck w
  | read n k => .read n fun o => (k o).erase
  | grow b k => .alloc b k.erase
  | copy _ k => k.erase
  | drop _ k => k.erase

end Mem

abbrev MemE (ε α : Type) := Mem (Except ε α)

namespace MemE

def ofRd (r : RdE ε α) : MemE ε α := Mem.ofRd r
def ok (a : α) : MemE ε α := Mem.ret (.ok a)
def err (e : ε) : MemE ε α := Mem.ret (.error e)

def andThen (r : MemE ε α) (f : α → MemE ε β) : MemE ε β :=
  Mem.bind r fun
    | .ok a => f a
    | .error e => .ret (.error e)

def mapErr (g : ε → ε') (r : MemE ε α) : MemE ε' α :=
  Mem.bind r fun
    | .ok a => .ret (.ok a)
    | .error e => .ret (.error (g e))

def mapOk (g : α → β) (r : MemE ε α) : MemE ε β := r.andThen fun a => ok (g a)

/-- A value of `n` bytes in containers is copied, and the original goes out of scope. -/
def copied (n : Nat) (k : MemE ε α) : MemE ε α := .copy n (.drop n k)

end MemE

def repeatM (r : MemE ε Val) : Nat → MemE ε (List Val)
  | 0 => MemE.ok []
  | n + 1 => r.andThen fun v => (repeatM r n).andThen fun vs => MemE.ok (v :: vs)

def resizeM (cfg : Cfg) (bytes : Nat) (k : MemE ε α) : MemE ε α :=
  if bytes > cfg.ptrdiffMax then Mem.stuck .lengthError else Mem.grow bytes k

/-! ### The bytes in the containers of a value -/

mutual
def heapKind : Kind → Val → Nat
  | .vec e _ _, .seq vs => vs.length * e.size
  | .record fs, .seq vs => heapFields fs vs
  | .arrRec fs _, .seq rs => (rs.map fun | .seq vs => heapFields fs vs | _ => 0).sum
  | .vecRec fs _ _ sz, .seq rs =>
      rs.length * sz + (rs.map fun | .seq vs => heapFields fs vs | _ => 0).sum
  | _, _ => 0
def heapField : Field → Val → Nat
  | .plain _ k _, v => heapKind k v
  | .maybe _ k _, .present v => heapKind k v
  | .union _ _ alts _, .var i v => heapAlts alts i v
  | _, _ => 0
def heapAlts : List Alt → Nat → Val → Nat
  | .mk k _ :: _, 0, v => heapKind k v
  | _ :: alts, i + 1, v => heapAlts alts i v
  | [], _, _ => 0
def heapFields : List Field → List Val → Nat
  | f :: fs, v :: vs => heapField f v + heapFields fs vs
  | _, _ => 0
end

/-! ### The reader, with its copies -/

/-- A nested list: `struct_cast_impl` and `field.value = *res`
(struct_cast_impl.hpp 49, field_reader.hpp 183-189). -/
def memRecord (fs : List Field) (r : MemE CastError (List Val)) : MemE Reason Val :=
  ((r.andThen fun vs => MemE.copied (heapFields fs vs) (MemE.ok vs)).mapErr CastError.reason).andThen
    fun vs => MemE.copied (heapFields fs vs) (MemE.ok (.seq vs))

mutual
/-- `readKind`. -/
def memKind (cfg : Cfg) (env : Env) : Kind → MemE Reason Val
  | .num t w => MemE.ofRd (readNum cfg t w)
  | .fbuf e n => MemE.ofRd (readFixedBuf cfg e n)
  | .fstr n => MemE.ofRd (readFixedStr n)
  | .vec e len bound =>
      (MemE.ofRd (RdE.lift (len.eval cfg env))).andThen fun n =>
      MemE.ofRd (readVec cfg e (ceilingOf cfg bound) n)
  | .record fs => memRecord fs (memFields cfg (dfltEnv fs) fs)
  | .arrRec fs n => (repeatM (memRecord fs (memFields cfg (dfltEnv fs) fs)) n).mapOk .seq
  | .vecRec fs len bound sz =>
      (MemE.ofRd (RdE.lift (len.eval cfg env))).andThen fun n =>
      match checkedByteCount cfg sz (ceilingOf cfg bound) n with
      | .error r => MemE.err r
      | .ok _ =>
        resizeM cfg (n * sz)
          ((repeatM (memRecord fs (memFields cfg (dfltEnv fs) fs)) n).mapOk .seq)
/-- `readField`; `field.value = base_field.value` at field_reader.hpp 215. -/
def memField (cfg : Cfg) (env : Env) : Field → MemE Reason Val
  | .plain _ k _ => memKind cfg env k
  | .maybe _ k p =>
      (MemE.ofRd (RdE.lift (p.eval env))).andThen fun b =>
      if b then
        (memKind cfg env k).andThen fun v => MemE.copied (heapKind k v) (MemE.ok (.present v))
      else MemE.ok .absent
  | .union _ d alts _ =>
      (MemE.ofRd (RdE.lift (d.eval env))).andThen fun
      | none => MemE.err .typeDeductionFailure
      | some i =>
        (memAlts cfg env alts i).mapOk fun
        | none => .var 0 (Alt.dfltFirst alts)
        | some v => .var i v
/-- `readAlts`. -/
def memAlts (cfg : Cfg) (env : Env) : List Alt → Nat → MemE Reason (Option Val)
  | [], _ => MemE.ok none
  | .mk k c :: _, 0 =>
      (memKind cfg env k).andThen fun v => MemE.mapOk some (MemE.ofRd (RdE.checked c v))
  | _ :: alts, i + 1 => memAlts cfg env alts i
/-- `readFields`. -/
def memFields (cfg : Cfg) (env : Env) : List Field → MemE CastError (List Val)
  | [] => MemE.ok []
  | f :: fs =>
      (((memField cfg env f).andThen fun v => MemE.ofRd (RdE.checked f.constraint v)).mapErr
        fun e => ⟨e, f.id⟩).andThen fun v =>
      (memFields cfg (env.set f.id v) fs).andThen fun vs => MemE.ok (v :: vs)
end

/-- `structCast`, with the copy it returns. -/
def memCast (cfg : Cfg) (fs : List Field) : MemE CastError (List Val) :=
  (memFields cfg (dfltEnv fs) fs).andThen fun vs => MemE.copied (heapFields fs vs) (MemE.ok vs)

/-! ### Counting -/

/-- Bytes so far: brought in by `resize`, copied; in use now; most ever in use. -/
structure Usage where
  grown : Nat := 0
  copied : Nat := 0
  live : Nat := 0
  peak : Nat := 0
  deriving DecidableEq, Repr

namespace Usage
def grow (u : Usage) (n : Nat) : Usage := ⟨u.grown + n, u.copied, u.live + n, max u.peak (u.live + n)⟩
def copy (u : Usage) (n : Nat) : Usage := ⟨u.grown, u.copied + n, u.live + n, max u.peak (u.live + n)⟩
def drop (u : Usage) (n : Nat) : Usage := ⟨u.grown, u.copied, u.live - n, u.peak⟩
end Usage

/-- Run on a stream, counting. -/
def Mem.runOn (S : InStream) : Mem α → S.State → Usage → Outcome α × S.State × Usage
  | .ret a, s, u => (.done a, s, u)
  | .stuck w, s, u => (.stuck w, s, u)
  | .read n k, s, u => let r := S.read s n; Mem.runOn S (k r.1) r.2 u
  | .grow b k, s, u => Mem.runOn S k s (u.grow b)
  | .copy b k, s, u => Mem.runOn S k s (u.copy b)
  | .drop b k, s, u => Mem.runOn S k s (u.drop b)

/-! ### Allocators that can fail -/

/-- Where containers get their memory from: any state, any behaviour. `take` is `none` if
`std::bad_alloc` is thrown. -/
structure Allocator where
  State : Type
  take : State → Nat → Option State
  give : State → Nat → State

/-- Run on a stream with an allocator. No outcome: `std::bad_alloc` escapes from the cast,
which is not `noexcept` and has no handler; the stream stays as it is then. -/
def Mem.tryOn (S : InStream) (M : Allocator) : Mem α → S.State → M.State → Option (Outcome α) × S.State
  | .ret a, s, _ => (some (.done a), s)
  | .stuck w, s, _ => (some (.stuck w), s)
  | .read n k, s, m => let r := S.read s n; Mem.tryOn S M (k r.1) r.2 m
  | .grow b k, s, m =>
      match M.take m b with
      | some m' => Mem.tryOn S M k s m'
      | none => (none, s)
  | .copy b k, s, m =>
      match M.take m b with
      | some m' => Mem.tryOn S M k s m'
      | none => (none, s)
  | .drop b k, s, m => Mem.tryOn S M k s (M.give m b)

/-- The sizes of the read calls made on the way. -/
def Mem.callsOn (S : InStream) (M : Allocator) : Mem α → S.State → M.State → List Nat
  | .ret _, _, _ => []
  | .stuck _, _, _ => []
  | .read n k, s, m => let r := S.read s n; n :: Mem.callsOn S M (k r.1) r.2 m
  | .grow b k, s, m =>
      match M.take m b with
      | some m' => Mem.callsOn S M k s m'
      | none => []
  | .copy b k, s, m =>
      match M.take m b with
      | some m' => Mem.callsOn S M k s m'
      | none => []
  | .drop b k, s, m => Mem.callsOn S M k s (M.give m b)

/-- So many bytes, and no more, can be in use at a time. -/
def bounded (limit : Nat) : Allocator where
  State := Nat
  take live n := if live + n ≤ limit then some (live + n) else none
  give live n := live - n

end S2S
