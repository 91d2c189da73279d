import Verif.Lemmas.Append
import Verif.Lemmas.Cost
import Verif.Props.Reading
import Verif.Props.RoundTrip
/-
C71, C72: what the schema alone says about the size of an encoding, and about the memory
and the calls a read takes.
-/
namespace S2S.Props
open Spec Demo

/-! ## C71 -/

/-- C71. A read that succeeds consumes at least the fewest and at most the most bytes the
schema admits. -/
theorem C71_read_between (cfg : Cfg) (fs : List Field) (hwf : WellFormed fs)
    (inp rest : List Byte) (vs : List Val)
    (h : (structCast cfg fs).run inp = (.done (.ok vs), rest)) :
    minFields fs + rest.length ≤ inp.length ∧ inp.length ≤ maxFields cfg fs + rest.length := by
  obtain ⟨hv, rfl⟩ := (read_iff cfg fs hwf inp rest vs).1 h
  have := wireFields_between cfg cfg.wire fs hwf.1 vs hv.1
  simp only [wire, List.length_append]
  omega

example : minFields packet = 10 ∧ maxFields be64 packet = 77 ∧ packetBytes.length = 18 := by decide

example : minFields packet + 0 ≤ packetBytes.length ∧ packetBytes.length ≤ maxFields be64 packet + 0 :=
  C71_read_between be64 packet (by decide) packetBytes [] packetParsed rfl

/-- C71, the write: what a successful write of a struct whose values fit emits is within
the same bounds. -/
theorem C71_write_between (cfg : Cfg) (fs : List Field) (hsc : SelfConsistent cfg fs)
    (vs : List Val) (hst : Storable cfg fs vs) (p : List Byte)
    (h : (streamCast cfg fs vs).run = (.done (.ok ()), p)) :
    minFields fs ≤ p.length ∧ p.length ≤ maxFields cfg fs := by
  obtain ⟨hv, rfl⟩ := write_sound cfg fs hsc vs hst p h
  exact wireFields_between cfg cfg.wire fs hsc.1.1 _ hv.1

example : minFields packet ≤ packetBytes.length ∧ packetBytes.length ≤ maxFields be64 packet :=
  C71_write_between be64 packet (by decide +kernel) packetVal (by decide +kernel) packetBytes rfl

/-- C71, an input that is too short for every value of the schema is never accepted. -/
theorem C71_too_short (cfg : Cfg) (fs : List Field) (hwf : WellFormed fs) (inp rest : List Byte)
    (hlt : inp.length < minFields fs) (vs : List Val) :
    (structCast cfg fs).run inp ≠ (.done (.ok vs), rest) := by
  intro h
  have := C71_read_between cfg fs hwf inp rest vs h
  omega

example (vs : List Val) (rest : List Byte) :
    (structCast be64 packet).run (packetBytes.take 9) ≠ (.done (.ok vs), rest) :=
  C71_too_short be64 packet (by decide) _ rest (by decide) vs

/-- A record without variable parts: a constant, a number and four bytes. -/
def fixedRecord : List Field :=
  [.plain "magic" (.num u16 2) (.cmp .eq i32 0xcafe),
   .plain "n" (.num u32 3) .none,
   .plain "raw" (.fbuf (.scalar u8) 4) .none,
   .plain "name" (.fstr 3) .none]

/-- C71, schemas of fixed size: every successful read takes, and every successful write
emits, that number of bytes. -/
theorem C71_fixed_size (cfg : Cfg) (fs : List Field) (hsc : SelfConsistent cfg fs) (n : Nat)
    (hmin : minFields fs = n) (hmax : maxFields cfg fs = n) :
    (∀ inp rest vs, (structCast cfg fs).run inp = (.done (.ok vs), rest) →
      inp.length = n + rest.length) ∧
    ∀ vs p, Storable cfg fs vs → (streamCast cfg fs vs).run = (.done (.ok ()), p) → p.length = n := by
  constructor
  · intro inp rest vs h
    have := C71_read_between cfg fs hsc.1 inp rest vs h
    omega
  · intro vs p hst h
    have := C71_write_between cfg fs hsc vs hst p h
    omega

example (vs : List Val) (rest inp : List Byte)
    (h : (structCast be64 fixedRecord).run inp = (.done (.ok vs), rest)) :
    inp.length = 13 + rest.length :=
  (C71_fixed_size be64 fixedRecord (by decide +kernel) 13 rfl rfl).1 inp rest vs h

/-! ## C72 -/

/-- C72. A read from any stream, however it ends, has allocated at most `memoryFields`
bytes per byte the stream delivered and `aheadFields` more. -/
theorem C72_memory (cfg : Cfg) (fs : List Field) (hs : saneFields fs = true)
    (hso : solidFields fs = true) (S : InStream) (s : S.State) :
    ((structCast cfg fs).allocsOn S s).sum ≤
      memoryFields fs * deliveredOn S (structCast cfg fs) s + aheadFields cfg fs := by
  obtain ⟨a, d, c, h1, h2, h3, h4⟩ :=
    Rd.ends_runOn S (spends_readFields cfg fs hs hso (dfltEnv fs) 0 0 0) s
  simp only [Nat.zero_add] at h1 h2
  rw [structCast, h1, h2]
  exact h4.1

/-- C72, success: nothing is left that the bytes do not account for, and at least the
fewest bytes of the schema were delivered. -/
theorem C72_memory_success (cfg : Cfg) (fs : List Field) (hs : saneFields fs = true)
    (hso : solidFields fs = true) (S : InStream) (s s' : S.State) (vs : List Val)
    (h : (structCast cfg fs).runOn S s = (.done (.ok vs), s')) :
    ((structCast cfg fs).allocsOn S s).sum ≤
      memoryFields fs * deliveredOn S (structCast cfg fs) s ∧
    minFields fs ≤ deliveredOn S (structCast cfg fs) s := by
  obtain ⟨a, d, c, h1, h2, h3, h4⟩ :=
    Rd.ends_runOn S (spends_readFields cfg fs hs hso (dfltEnv fs) 0 0 0) s
  simp only [Nat.zero_add] at h1 h2
  have h5 := h4.2.2 vs (by rw [← structCast, h])
  rw [structCast, h1, h2]
  exact h5

/-- C72, calls: a read makes at most `rateFields` calls of the stream per byte delivered
and `callsFields` more. -/
theorem C72_calls (cfg : Cfg) (fs : List Field) (hs : saneFields fs = true)
    (hso : solidFields fs = true) (S : InStream) (s : S.State) :
    ((structCast cfg fs).callsOn S s).length ≤
      rateFields fs * deliveredOn S (structCast cfg fs) s + callsFields fs := by
  obtain ⟨a, d, c, h1, h2, h3, h4⟩ :=
    Rd.ends_runOn S (spends_readFields cfg fs hs hso (dfltEnv fs) 0 0 0) s
  simp only [Nat.zero_add] at h2 h3
  rw [structCast, h2, h3]
  exact h4.2.1

/-- C72, from a byte string: what is delivered is what is gone from the string, so memory
and calls are linear in the length of the input. -/
theorem C72_input (cfg : Cfg) (fs : List Field) (hs : saneFields fs = true)
    (hso : solidFields fs = true) (inp : List Byte) :
    ((structCast cfg fs).allocsOn listIn inp).sum ≤ memoryFields fs * inp.length + aheadFields cfg fs ∧
    ((structCast cfg fs).callsOn listIn inp).length ≤ rateFields fs * inp.length + callsFields fs := by
  have hd := delivered_list (structCast cfg fs) inp
  have hle : deliveredOn listIn (structCast cfg fs) inp ≤ inp.length := by omega
  have h1 := Nat.mul_le_mul_left (memoryFields fs) hle
  have h2 := Nat.mul_le_mul_left (rateFields fs) hle
  have h3 := C72_memory cfg fs hs hso listIn inp
  have h4 := C72_calls cfg fs hs hso listIn inp
  omega

/-- Points in a vector, behind a 32-bit count; each has a vector of its own. -/
def trackSchema : List Field :=
  [.plain "n" (.num u32 4) .none,
   .plain "points" (.vecRec
     [.plain "m" (.num u8 1) .none, .plain "bytes" (.vec (.scalar u8) (.fromField "m") none) .none]
     (.fromField "n") none 32) .none]

example : memoryFields trackSchema = 33 ∧ aheadFields be64 trackSchema = 2 * 16777216 ∧
    rateFields trackSchema = 3 ∧ callsFields trackSchema = 3 := by decide

example (inp : List Byte) :
    ((structCast be64 trackSchema).allocsOn listIn inp).sum ≤ 33 * inp.length + 33554432 ∧
    ((structCast be64 trackSchema).callsOn listIn inp).length ≤ 3 * inp.length + 3 :=
  C72_input be64 trackSchema (by decide) (by decide) inp

/-- Two points: 64 bytes for the vector, three and none for theirs; nine bytes delivered. -/
example : (structCast be64 trackSchema).allocsOn listIn [0, 0, 0, 2, 3, 7, 8, 9, 0] = [64, 3, 0] := by rfl

/-- Records of which every field may be absent, behind a 32-bit count. -/
def hollowRecord : List Field := [.maybe "x" (.num u8 1) ⟨[], fun _ => false⟩]
def hollowCount : Field := .plain "n" (.num u32 4) .none
def hollowVec : Field := .plain "v" (.vecRec hollowRecord (.fromField "n") none 2) .none
def hollowSchema : List Field := [hollowCount, hollowVec]

theorem repeatE_ok (v : Val) (n : Nat) :
    repeatE (RdE.ok v : RdE Reason Val) n = RdE.ok (List.replicate n v) := by
  induction n with
  | zero => rfl
  | succ n ih => rw [repeatE, ih]; rfl

theorem hollow_read (env : Env) (n : Nat) (he : (LenSpec.fromField "n").eval be64 env = .ok n)
    (hn : n * 2 ≤ 16777216) :
    readKind be64 env (.vecRec hollowRecord (.fromField "n") none 2) =
      Rd.alloc (n * 2) (RdE.ok (.seq (List.replicate n (.seq [.absent])))) := by
  have h0 : ((readFields be64 (dfltEnv hollowRecord) hollowRecord).untag).mapOk Val.seq =
      (RdE.ok (.seq [.absent]) : RdE Reason Val) := by rfl
  have h1 : checkedByteCount be64 2 (ceilingOf be64 none) n = .ok (n * 2 % be64.szMod) := by
    have : ¬ ceilingOf be64 none / 2 < n := by
      have : ceilingOf be64 none / 2 = 8388608 := by decide
      omega
    simp [checkedByteCount, this]
  have h2 : ¬ be64.ptrdiffMax < n * 2 := by
    have : be64.ptrdiffMax = 9223372036854775807 := by decide
    omega
  rw [readKind, he, h0]
  simp only [repeatE_ok]
  simp only [RdE.lift, RdE.andThen, RdE.ok, Rd.bind, h1, resize, h2, if_false]
  rfl

/-- C72 needs records that take at least a byte: with records that may take none, four
bytes make the library allocate the whole ceiling, and the cast succeeds. -/
theorem C72_needs_solid :
    saneFields hollowSchema = true ∧ solidFields hollowSchema = false ∧
    ∃ vs, (structCast be64 hollowSchema).run [0, 0x80, 0, 0] = (.done (.ok vs), []) ∧
      (structCast be64 hollowSchema).allocsOn listIn [0, 0x80, 0, 0] = [16777216] := by
  refine ⟨by decide, by decide, ?_⟩
  have h1 : (structCast be64 [hollowCount]).runOn listIn [0, 0x80, 0, 0] =
      (.done (.ok [.int 0x800000]), []) := by rfl
  have h2 := hollow_read (envOf [hollowCount] [.int 0x800000]) 0x800000 (by rfl) (by decide)
  have hwf : WellFormed ([hollowCount] ++ [hollowVec]) := by decide
  revert h2
  generalize Val.seq (List.replicate 0x800000 (.seq [.absent])) = v
  intro h2
  have h3 : readRest be64 [hollowCount] [hollowVec] [.int 0x800000] =
      Rd.alloc 16777216 (RdE.ok [.int 0x800000, v]) := by
    rw [readRest, readFields, hollowVec, readField, h2]
    rfl
  refine ⟨[.int 0x800000, v], ?_, ?_⟩
  · have := runOn_append be64 _ _ hwf listIn _ _ _ h1
    rw [h3] at this
    exact this
  · have := allocsOn_append be64 _ _ hwf listIn _ _ _ h1
    rw [h3] at this
    exact this

/-- On every stream, also one that delivers as it likes. -/
example (S : InStream) (s : S.State) :
    ((structCast be64 trackSchema).allocsOn S s).sum ≤
      33 * deliveredOn S (structCast be64 trackSchema) s + 33554432 :=
  C72_memory be64 trackSchema (by decide) (by decide) S s
example (S : InStream) (s : S.State) :
    ((structCast be64 trackSchema).callsOn S s).length ≤
      3 * deliveredOn S (structCast be64 trackSchema) s + 3 :=
  C72_calls be64 trackSchema (by decide) (by decide) S s
/-- Two points: 67 bytes allocated, nine delivered. -/
example := C72_memory_success be64 trackSchema (by decide) (by decide) listIn [0, 0, 0, 2, 3, 7, 8, 9, 0] [] _ (by rfl)

end S2S.Props
