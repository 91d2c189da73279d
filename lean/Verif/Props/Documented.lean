import Verif.Props.Exact
import Verif.Props.Defined
import Verif.Props.Calls
import Verif.Props.Numbers
import Verif.Lemmas.Order
import Verif.Spec.Numeral
/-
The schemas /repo shows to its users, on every platform and for every input.
-/
namespace S2S.Props
open S2S.Spec S2S.Demo

namespace Shown

/-- `magic_byte_array<id, n, value>` -/
abbrev magic (id : String) (v : List Int) : Field :=
  .plain id (.fbuf (.scalar u8) v.length) (.arrCmp true (.seq (v.map Val.int)))
abbrev basic (id : String) (t : ScalarTy) (w : Nat) (c : Constraint := .none) : Field := .plain id (.num t w) c
abbrev vec (id : String) (t : ScalarTy) (l : String) : Field := .plain id (.vec (.scalar t) (.fromField l) none) .none

/-- `log_record`: /repo/docs/writing.md, /repo/test/doc_examples/guide_writing_example.cpp 14-20. -/
def logRecord : List Field :=
  [magic "marker" [0x4c, 0x47], basic "message_length" u16 2, vec "message" u8 "message_length"]

/-- `gzip_header`: /repo/docs/schema/optional-and-variant.md, guide_optional_example.cpp. -/
def gzipHeader : List Field :=
  [magic "magic" [0x1f, 0x8b], basic "method" u8 1, basic "flags" u8 1, basic "mtime" u32 4,
   .maybe "name_length" (.num u16 2) ⟨["flags"], fun | [.int f] => f / 8 % 2 == 1 | _ => false⟩]

/-- `wav_format`: /repo/docs/constraints.md, guide_constraints_example.cpp. -/
def wavFormat : List Field :=
  [magic "chunk_id" [0x66, 0x6d, 0x74, 0x20], basic "chunk_size" u32 4 (.cmp .eq u32 16),
   basic "audio_format" u16 2 (.cmp .eq u16 1), basic "channels" u16 2 (.anyOf u16 [1, 2]),
   basic "sample_rate" u32 4 (.cmp .ge u32 8000), basic "bits_per_sample" u16 2 (.anyOf u16 [8, 16, 24])]

/-- `tlv_record`: /repo/docs/schema/optional-and-variant.md, guide_variance_example.cpp. -/
def tlvRecord : List Field :=
  [basic "tag" u8 1,
   .union "value" (.matchField "tag" u8 [(i32, 1), (i32, 2)]) [.mk (.num u32 4) .none, .mk (.num i32 4) .none] .none]

/-- `extent_record`: the same. -/
def extentRecord : List Field :=
  [basic "length" u32 4,
   .union "payload" (.ladder [⟨["length"], fun | [.int l] => l ≤ 4 | _ => false⟩,
                              ⟨["length"], fun | [.int l] => l > 4 | _ => false⟩])
     [.mk (.num u32 4) .none, .mk (.num i32 4) .none] .none]

/-- `telemetry_frame`: /repo/docs/schema/index.md, guide_schema_example.cpp. -/
def telemetryFrame : List Field :=
  [magic "marker" [0xab, 0xcd], basic "device_id" u16 2, basic "revision" u8 1 (.anyOf u8 [1, 2]),
   basic "sample_count" u32 4, vec "samples" u16 "sample_count"]

/-- `bmp_header`: /repo/docs/reading.md, guide_reading_example.cpp. -/
def bmpHeader : List Field :=
  [magic "signature" [0x42, 0x4d], basic "file_size" u32 4, basic "reserved" u32 4, basic "pixel_offset" u32 4]

/-- `heartbeat`: /repo/docs/streams.md, guide_stream_example.cpp. -/
def heartbeat : List Field := [magic "marker" [0x48, 0x42], basic "sequence" u32 4]

/-- `firmware_image`: /repo/README.md, readme_roundtrip_example.cpp. -/
def firmwareImage : List Field :=
  [magic "marker" [0x46, 0x57], basic "version" u16 2, basic "payload_length" u32 4, vec "payload" u8 "payload_length"]

/-- `partition_entry`: /repo/docs/compile-time.md, guide_constexpr_example.cpp. -/
def partitionEntry : List Field := [basic "start_lba" u32 4, basic "sector_count" u32 4]

/-- `tagged`: /repo/docs/struct.md, doc_example.cpp. -/
def tagged : List Field :=
  [basic "tag" u32 4,
   .union "body" (.matchField "tag" u32 [(u32, 0xcafed00d), (u32, 0xdeadbeef)])
     [.mk (.record [basic "x" u32 4]) .none, .mk (.record [basic "y" u32 4]) .none] .none]

/-- `image_tile`: /repo/docs/schema/computed-values.md, guide_computed_example.cpp 16-30. The
product is the one of the integers; see `C112_fails_overflow`. -/
def imageTile : List Field :=
  [basic "width" u16 2, basic "height" u16 2,
   .plain "pixels" (.vec (.scalar u16)
     (.computed ⟨["width", "height"], fun | [.int w, .int h] => w * h | _ => 0⟩) none) .none]

/-- `message`: /repo/examples/hello_s2s.cpp 13-17, on platforms where `std::size_t` has eight
bytes. -/
def message : List Field := [basic "len" u64 8, vec "text" u8 "len"]

def all : List (List Field) :=
  [logRecord, gzipHeader, wavFormat, tlvRecord, extentRecord, telemetryFrame, bmpHeader, heartbeat, firmwareImage,
   partitionEntry, tagged, imageTile]

end Shown

/-- A computer with `std::size_t` of four or eight bytes, either byte order, the default
ceiling on allocations, and either kind of stream and byte order asked for. -/
def Platform (cfg : Cfg) : Prop :=
  (cfg.szBytes = 4 ∨ cfg.szBytes = 8) ∧ cfg.defaultMax = 16 * 1024 * 1024

/-- All that the conditional properties promise. -/
structure Faithful (cfg : Cfg) (fs : List Field) : Prop where
  /-- reading ends in a struct or an error, whatever the stream does -/
  readDefined : ∀ (S : InStream) (s : S.State), ∃ r s', (structCast cfg fs).runOn S s = (.done r, s')
  /-- so does writing, whatever struct a program has -/
  writeDefined : ∀ vs, Typed cfg fs vs → ∀ (S : OutStream) (s : S.State),
    ∃ r s', (streamCast cfg fs vs).runOn S s = (.done r, s')
  /-- what is read can be written again, and is what it was -/
  rewrite : ∀ inp vs rest, (structCast cfg fs).run inp = (.done (.ok vs), rest) →
    ∃ p, inp = p ++ rest ∧ (streamCast cfg fs vs).run = (.done (.ok ()), p)
  /-- what is written can be read, whatever follows it, up to what the library fills in -/
  roundTrip : ∀ vs, Storable cfg fs vs → ∀ p, (streamCast cfg fs vs).run = (.done (.ok ()), p) →
    ∀ rest, (structCast cfg fs).run (p ++ rest) = (.done (.ok (settle fs vs)), rest)
  /-- no message starts another -/
  unique : ∀ vs ws, Storable cfg fs vs → Storable cfg fs ws → ∀ p q,
    (streamCast cfg fs vs).run = (.done (.ok ()), p) → (streamCast cfg fs ws).run = (.done (.ok ()), q) → p <+: q →
    p = q ∧ settle fs vs = settle fs ws

/-- The conditions, all of which can be computed. -/
def Checked (cfg : Cfg) (fs : List Field) : Prop :=
  SelfConsistent cfg fs ∧ RewritableChecked cfg fs ∧
  Everywhere (fun gs => Resolves gs ∧ CallableAll gs) fs ∧ Everywhere (fun gs => Resolves gs ∧ WriteSafe cfg gs) fs ∧
  hazardsFields cfg fs = []

instance (cfg : Cfg) (fs : List Field) : Decidable (Checked cfg fs) := by unfold Checked; infer_instance

theorem faithful_of_checked {cfg : Cfg} {fs : List Field} (h : Checked cfg fs) : Faithful cfg fs where
  readDefined := C64_defined cfg fs h.1.1 h.2.2.1 h.2.2.2.2
  writeDefined := fun vs hv S s => C50_defined cfg fs h.1.1 h.2.2.2.1 vs hv S s
  rewrite := fun inp vs rest hr => C49_rewrite cfg fs (rewritable_of_checked h.2.1) inp rest vs hr
  roundTrip := fun vs hv p hp rest => C45_round_trip cfg fs h.1 vs hv p hp rest
  unique := fun vs ws hv hw p q hp hq hpq => C46_unique_decoding cfg fs h.1 vs ws hv hw p q hp hq hpq

/-- Bytes as a container holds them. -/
def held (bs : List Byte) : Val := .seq (bs.map fun b => .int b.toNat)

/-- C112. Every schema the documentation shows. -/
theorem C112_shown (cfg : Cfg) (hc : Platform cfg) (fs : List Field) (hf : fs ∈ Shown.all) : Faithful cfg fs := by
  apply faithful_of_checked
  obtain ⟨host, wire, ct, sz, dm⟩ := cfg
  obtain ⟨hs, rfl⟩ := hc
  have key : ∀ fs ∈ Shown.all, ∀ host ∈ [Endian.little, .big], ∀ wire ∈ [Endian.little, .big], ∀ ct ∈ [false, true],
      ∀ sz ∈ [4, 8], Checked ⟨host, wire, ct, sz, 16 * 1024 * 1024⟩ fs := by decide +kernel
  exact key fs hf host (by cases host <;> simp) wire (by cases wire <;> simp) ct (by cases ct <;> simp) sz (by
    simpa using hs)

/-- With the theorem: a frame of the first page is read, and what is read can be written again. -/
example : ∃ p, [0xab, 0xcd, 0, 7, 2, 0, 0, 0, 1, 1, 2, 9] = p ++ [9] ∧
    (streamCast be64 Shown.telemetryFrame
      [held [0xab, 0xcd], .int 7, .int 2, .int 1, .seq [.int 258]]).run = (.done (.ok ()), p) :=
  (C112_shown be64 ⟨.inr rfl, rfl⟩ Shown.telemetryFrame (by simp [Shown.all])).rewrite _ _ _ (by rfl)

/-- C112. The first example of the library, whose length is a `std::size_t`. -/
theorem C112_hello (cfg : Cfg) (hs : cfg.szBytes = 8) (hm : cfg.defaultMax = 16 * 1024 * 1024) :
    Faithful cfg Shown.message := by
  apply faithful_of_checked
  obtain ⟨host, wire, ct, sz, dm⟩ := cfg
  cases hs; cases hm
  have key : ∀ host ∈ [Endian.little, .big], ∀ wire ∈ [Endian.little, .big], ∀ ct ∈ [false, true],
      Checked ⟨host, wire, ct, 8, 16 * 1024 * 1024⟩ Shown.message := by decide +kernel
  exact key host (by cases host <;> simp) wire (by cases wire <;> simp) ct (by cases ct <;> simp)

example : (structCast be64 Shown.message).run [0, 0, 0, 0, 0, 0, 0, 2, 104, 105, 9] =
    (.done (.ok [.int 2, .seq [.int 104, .int 105]]), [9]) := by rfl

/-! ### The bytes each page says are accepted, spelt out -/

/-- The number some bytes stand for (`numeral`), with a sign. -/
def signed (o : Endian) (bs : List Byte) : Int :=
  if 2 * numeral o bs < 256 ^ bs.length then numeral o bs else (numeral o bs : Int) - (256 ^ bs.length : Nat)

theorem numeral_eq (o : Endian) (bs : List Byte) : numeral o bs = leNat (o.order bs) := by
  have hl : ∀ bs : List Byte, bs.foldr (fun b n => b.toNat + 256 * n) 0 = leNat bs := by
    intro bs
    induction bs with
    | nil => rfl
    | cons b bs ih => simp only [List.foldr_cons, ih, leNat]
  cases o with
  | little => exact hl bs
  | big => simp only [numeral, Endian.order]; rw [← hl, List.foldr_reverse]; congr 1; funext n b; omega

theorem numeral_lt (o : Endian) (bs : List Byte) : numeral o bs < 256 ^ bs.length := by
  rw [numeral_eq]
  simpa using leNat_lt (o.order bs)

theorem wire_number (o : Endian) (bs : List Byte) : wireScalar o bs.length bs.length (numeral o bs) = bs := by
  rw [wireScalar_eq _ _ _ _ (Nat.le_refl _), residue_ofNat, Nat.mod_eq_of_lt (numeral_lt o bs), numeral_eq]
  have := leBytes_leNat (o.order bs)
  rw [Endian.order_length] at this
  rw [this, Endian.order_order, List.take_length]

theorem numeral_wire (o : Endian) (n : Nat) (x : Int) (h0 : 0 ≤ x) (h1 : x < (256 ^ n : Nat)) :
    x = numeral o (wireScalar o n n x) := by
  rw [wireScalar_eq _ _ _ _ (Nat.le_refl _), numeral_eq, List.take_of_length_le (by simp), Endian.order_order,
    leNat_leBytes, Nat.mod_eq_of_lt (residue_lt n x), residue_of_range _ _ h0 h1]

theorem fits_unsigned (cfg : Cfg) (n : Nat) (v : Val) :
    FitsKind cfg (.num (.int n false) n) v ↔ ∃ bs : List Byte, bs.length = n ∧ v = .int (numeral cfg.wire bs) := by
  cases v with
  | int x =>
    simp only [FitsKind, ScalarFits, ScalarTy.size, ScalarTy.InRange, true_or, and_true, Val.int.injEq]
    constructor
    · rintro ⟨h0, h1⟩
      exact ⟨wireScalar cfg.wire n n x, by simp, numeral_wire _ _ _ h0 h1⟩
    · rintro ⟨bs, rfl, rfl⟩
      have := numeral_lt cfg.wire bs
      omega
  | _ => simp [FitsKind]

theorem wire_unsigned (o : Endian) (bs : List Byte) (n : Nat) (h : bs.length = n) :
    wireKind o (.num (.int n false) n) (.int (numeral o bs)) = bs := by
  subst h
  simpa only [wireKind, ScalarTy.size] using wire_number o bs

theorem byte_fits (v : Val) : ElemFits (.scalar u8) v ↔ ∃ b : Byte, v = .int b.toNat := by
  cases v with
  | int x =>
    simp only [ElemFits, ScalarTy.InRange, Val.int.injEq]
    constructor
    · rintro ⟨h0, h1⟩
      refine ⟨UInt8.ofNat x.toNat, ?_⟩
      have : x.toNat < 256 := by omega
      simp only [UInt8.toNat_ofNat']
      omega
    · rintro ⟨b, rfl⟩
      have := b.toNat_lt
      omega
  | _ => simp [ElemFits]

theorem bytes_fit (vs : List Val) :
    (∀ v ∈ vs, ElemFits (.scalar u8) v) ↔ ∃ bs : List Byte, vs = bs.map fun b => .int b.toNat := by
  induction vs with
  | nil => simp
  | cons v vs ih =>
    rw [List.forall_mem_cons, ih, byte_fits]
    constructor
    · rintro ⟨⟨b, rfl⟩, bs, rfl⟩
      exact ⟨b :: bs, rfl⟩
    · rintro ⟨_ | ⟨b, bs⟩, h⟩
      · cases h
      · cases h
        exact ⟨⟨b, rfl⟩, bs, rfl⟩

theorem byte_wire (o : Endian) (b : Byte) : wireElem o (.scalar u8) (.int b.toNat) = [b] := by
  have h : byteAt (b.toNat : Int) 0 = b := by
    apply UInt8.toNat_inj.mp
    have := byteAt_toNat (b.toNat : Int) 0
    have := b.toNat_lt
    omega
  cases o <;> simp [wireElem, wireScalar, ScalarTy.size, h]

theorem bytes_wire (o : Endian) (bs : List Byte) :
    (bs.map fun b => Val.int b.toNat).flatMap (wireElem o (.scalar u8)) = bs := by
  induction bs with
  | nil => rfl
  | cons b bs ih => simp [byte_wire, ih]

theorem fits_magic (cfg : Cfg) (n : Nat) (v : Val) :
    FitsKind cfg (.fbuf (.scalar u8) n) v ↔ ∃ bs : List Byte, bs.length = n ∧ v = held bs := by
  cases v with
  | seq vs =>
    simp only [FitsKind, bytes_fit, held, Val.seq.injEq]
    constructor
    · rintro ⟨rfl, bs, rfl⟩; exact ⟨bs, by simp, rfl⟩
    · rintro ⟨bs, rfl, rfl⟩; exact ⟨by simp, bs, rfl⟩
  | _ => simp [FitsKind, held]

theorem wire_magic (o : Endian) (bs : List Byte) (n : Nat) : wireKind o (.fbuf (.scalar u8) n) (held bs) = bs :=
  bytes_wire o bs

theorem fits_held (cfg : Cfg) (l : LenSpec) (v : Val) :
    FitsKind cfg (.vec (.scalar u8) l none) v ↔
      ∃ bs : List Byte, StorageFits cfg none 1 bs.length ∧ v = held bs := by
  cases v with
  | seq vs =>
    simp only [FitsKind, bytes_fit, held, Val.seq.injEq]
    constructor
    · rintro ⟨h, bs, rfl⟩; exact ⟨bs, by simpa [ElemTy.size, ScalarTy.size] using h, rfl⟩
    · rintro ⟨bs, h, rfl⟩; exact ⟨by simpa [ElemTy.size, ScalarTy.size] using h, bs, rfl⟩
  | _ => simp [FitsKind, held]

theorem wire_held (o : Endian) (bs : List Byte) (l : LenSpec) : wireKind o (.vec (.scalar u8) l none) (held bs) = bs :=
  bytes_wire o bs

theorem held_inj {a b : List Byte} : held a = held b ↔ a = b := by
  constructor
  · intro h
    rw [← bytes_wire .little a, ← bytes_wire .little b]
    simp only [held, Val.seq.injEq] at h
    rw [h]
  · rintro rfl; rfl

/-- The constraint of a magic number. -/
theorem holds_magic (bs : List Byte) (m : List Int) (ms : List Byte) (h : .seq (m.map Val.int) = held ms) :
    Holds (.arrCmp true (.seq (m.map Val.int))) (held bs) ↔ bs = ms := by
  simp only [Holds, Constraint.check, Except.ok.injEq, beq_true]
  rw [Val.eqb_iff, h, held_inj]

theorem toSz_number (cfg : Cfg) (hc : Platform cfg) (bs : List Byte) (h : bs.length ≤ 4) :
    cfg.toSz (numeral cfg.wire bs) = numeral cfg.wire bs := by
  have h1 := numeral_lt cfg.wire bs
  have h2 : (256 : Nat) ^ bs.length ≤ 256 ^ 4 := Nat.pow_le_pow_right (by decide) h
  rw [Cfg.toSz, residue_ofNat, Nat.mod_eq_of_lt]
  rcases hc.1 with h | h <;> rw [h] <;> omega

theorem storage_small (cfg : Cfg) (hc : Platform cfg) (n : Nat) :
    StorageFits cfg none 1 n ↔ n ≤ 16 * 1024 * 1024 := by
  obtain ⟨h1, h2⟩ := hc
  simp only [StorageFits, Option.getD_none, h2, Cfg.ptrdiffMax, Cfg.szMod, Nat.mul_one]
  rcases h1 with h | h <;> rw [h] <;> omega

theorem shaped_held (cfg : Cfg) (env : Env) (l : LenSpec) (b : Option Nat) (bs : List Byte) :
    ShapedKind cfg env (.vec (.scalar u8) l b) (held bs) ↔ l.eval cfg env = .ok bs.length := by
  simp [held, ShapedKind]

theorem ok_magic (n : Nat) (v : Val) : OkKind (.fbuf (.scalar u8) n) v ↔ True := by simp [OkKind]
theorem ok_held (l : LenSpec) (b : Option Nat) (v : Val) : OkKind (.vec (.scalar u8) l b) v ↔ True := by
  simp [OkKind]
theorem ok_num (t : ScalarTy) (n : Nat) (v : Val) : OkKind (.num t n) v ↔ True := by simp [OkKind]
theorem shaped_magic (cfg : Cfg) (env : Env) (n : Nat) (v : Val) :
    ShapedKind cfg env (.fbuf (.scalar u8) n) v ↔ True := by simp [ShapedKind]
theorem shaped_num (cfg : Cfg) (env : Env) (t : ScalarTy) (n : Nat) (v : Val) :
    ShapedKind cfg env (.num t n) v ↔ True := by simp [ShapedKind]
theorem holds_none (v : Val) : Holds .none v ↔ True := by simp [Holds, Constraint.check]

/-- C112. `log_record`: the marker, a length in two bytes and as many bytes; nothing else is
accepted, and this is what is delivered. -/
theorem C112_log (cfg : Cfg) (hc : Platform cfg) (inp rest : List Byte) (vs : List Val) :
    (structCast cfg Shown.logRecord).run inp = (.done (.ok vs), rest) ↔
    ∃ n text, n.length = 2 ∧ text.length = numeral cfg.wire n ∧ inp = [0x4c, 0x47] ++ n ++ text ++ rest ∧
      vs = [held [0x4c, 0x47], .int text.length, held text] := by
  rw [read_iff cfg _ (by decide)]
  have hm' := fun m => holds_magic m [0x4c, 0x47] [0x4c, 0x47] rfl
  constructor
  · rintro ⟨⟨hf, ho, hs⟩, rfl⟩
    match vs, hf with
    | [v1, v2, v3], hf =>
      simp only [Shown.logRecord, FitsFields, FitsField, fits_magic, fits_unsigned, fits_held, and_true] at hf
      obtain ⟨⟨m, -, rfl⟩, ⟨n, hn, rfl⟩, t, -, rfl⟩ := hf
      simp only [Shown.logRecord, OkFields, OkField, hm', ok_magic, ok_held, ok_num, holds_none, and_true, true_and] at ho
      simp [Shown.logRecord, ShapedFields, ShapedField, shaped_held, shaped_magic, shaped_num, LenSpec.eval, envOf,
        Env.set, Field.id, toSz_number cfg hc n (by omega)] at hs
      subst ho
      exact ⟨n, t, hn, hs.symm, by
        simp [Shown.logRecord, wire, wireFields, wireField, wire_magic, wire_held, wire_unsigned _ n 2 hn], by rw [hs]⟩
  · rintro ⟨n, t, hn, ht, rfl, rfl⟩
    refine ⟨⟨?_, ?_, ?_⟩, ?_⟩
    · simp only [Shown.logRecord, FitsFields, FitsField, fits_magic, fits_unsigned, fits_held, storage_small cfg hc,
        and_true]
      have := numeral_lt cfg.wire n
      rw [hn] at this
      exact ⟨⟨_, rfl, rfl⟩, ⟨n, hn, by rw [ht]⟩, t, by omega, rfl⟩
    · simp only [Shown.logRecord, OkFields, OkField, hm', ok_magic, ok_held, ok_num, holds_none, and_true]
    · simp [Shown.logRecord, ShapedFields, ShapedField, shaped_held, shaped_magic, shaped_num, LenSpec.eval, envOf,
        Env.set, Field.id, ht, toSz_number cfg hc n (by omega)]
    · simp [Shown.logRecord, wire, wireFields, wireField, wire_magic, wire_held, ht, wire_unsigned _ n 2 hn]

example : (structCast be64 Shown.logRecord).run [0x4c, 0x47, 0, 2, 104, 105, 33] =
    (.done (.ok [held [0x4c, 0x47], .int 2, held [104, 105]]), [33]) :=
  (C112_log be64 ⟨.inr rfl, rfl⟩ _ _ _).2 ⟨[0, 2], [104, 105], rfl, rfl, rfl, rfl⟩

theorem numeral_residue (o : Endian) (n : Nat) (x : Int) : numeral o (wireScalar o n n x) = residue n x := by
  rw [wireScalar_eq _ _ _ _ (Nat.le_refl _), numeral_eq, List.take_of_length_le (by simp), Endian.order_order,
    leNat_leBytes, Nat.mod_eq_of_lt (residue_lt n x)]

theorem residue_signed (o : Endian) (bs : List Byte) : residue bs.length (signed o bs) = numeral o bs := by
  have h := numeral_lt o bs
  unfold signed
  have : ((residue bs.length (numeral o bs) : Nat) : Int) = numeral o bs := by
    rw [residue_ofNat, Nat.mod_eq_of_lt h]
  split
  · omega
  · have h2 : residue bs.length ((numeral o bs : Int) - (256 ^ bs.length : Nat)) = residue bs.length (numeral o bs) := by
      simp only [residue, Int.sub_emod_right]
    omega

theorem fits_signed (cfg : Cfg) (n : Nat) (v : Val) :
    FitsKind cfg (.num (.int n true) n) v ↔ ∃ bs : List Byte, bs.length = n ∧ v = .int (signed cfg.wire bs) := by
  cases v with
  | int x =>
    simp only [FitsKind, ScalarFits, ScalarTy.size, ScalarTy.InRange, true_or, and_true, Val.int.injEq]
    constructor
    · rintro ⟨h0, h1⟩
      refine ⟨wireScalar cfg.wire n n x, by simp, ?_⟩
      simp only [signed, numeral_residue, wireScalar_length]
      have hr := residue_cast n x
      by_cases hx : 0 ≤ x
      · rw [Int.emod_eq_of_lt hx (by omega)] at hr
        rw [if_pos (by omega)]; omega
      · rw [← Int.add_emod_right, Int.emod_eq_of_lt (by omega) (by omega)] at hr
        rw [if_neg (by omega)]; omega
    · rintro ⟨bs, rfl, rfl⟩
      have := numeral_lt cfg.wire bs
      unfold signed
      split <;> omega
  | _ => simp [FitsKind]

theorem wire_signed (o : Endian) (bs : List Byte) (n : Nat) (h : bs.length = n) :
    wireKind o (.num (.int n true) n) (.int (signed o bs)) = bs := by
  subst h
  have h := wire_number o bs
  rw [wireScalar_eq _ _ _ _ (Nat.le_refl _), residue_ofNat, Nat.mod_eq_of_lt (numeral_lt o bs)] at h
  simp only [wireKind, ScalarTy.size]
  rw [wireScalar_eq _ _ _ _ (Nat.le_refl _), residue_signed, h]

theorem numeral_one (o : Endian) (b : Byte) : numeral o [b] = b.toNat := by cases o <;> simp [numeral]

theorem conv_number (o : Endian) (bs : List Byte) (n : Nat) (h : bs.length = n) :
    ScalarTy.conv (.int n false) (numeral o bs) = numeral o bs := by
  subst h
  have := numeral_lt o bs
  exact ScalarTy.conv_of_inRange _ _ (by simp only [ScalarTy.InRange]; omega)

theorem fits_plain (cfg : Cfg) (id : String) (k : Kind) (c : Constraint) (v : Val) :
    FitsField cfg (.plain id k c) v ↔ FitsKind cfg k v := by simp only [FitsField]

theorem fits_maybe (cfg : Cfg) (id : String) (k : Kind) (p : Pred) (v : Val) :
    FitsField cfg (.maybe id k p) v ↔ v = .absent ∨ ∃ w, v = .present w ∧ FitsKind cfg k w := by
  cases v <;> simp [FitsField]

theorem ok_plain (id : String) (k : Kind) (c : Constraint) (v : Val) :
    OkField (.plain id k c) v ↔ OkKind k v ∧ Holds c v := by simp only [OkField]

theorem ok_maybe (id : String) (t : ScalarTy) (n : Nat) (p : Pred) (v : Val) :
    OkField (.maybe id (.num t n) p) v ↔ True := by
  cases v <;> simp [OkField, OkKind]

/-- C112. `gzip_header`: the signature, method, flags and time; and two bytes more exactly if
the fourth of the flags is set. -/
theorem C112_gzip (cfg : Cfg) (inp rest : List Byte) (vs : List Val) :
    (structCast cfg Shown.gzipHeader).run inp = (.done (.ok vs), rest) ↔
    ∃ method flags mtime, mtime.length = 4 ∧
      (flags.toNat / 8 % 2 = 0 ∧ inp = [0x1f, 0x8b, method, flags] ++ mtime ++ rest ∧
        vs = [held [0x1f, 0x8b], .int method.toNat, .int flags.toNat, .int (numeral cfg.wire mtime), .absent] ∨
       flags.toNat / 8 % 2 = 1 ∧ ∃ len, len.length = 2 ∧ inp = [0x1f, 0x8b, method, flags] ++ mtime ++ len ++ rest ∧
        vs = [held [0x1f, 0x8b], .int method.toNat, .int flags.toNat, .int (numeral cfg.wire mtime),
          .present (.int (numeral cfg.wire len))]) := by
  rw [read_iff cfg _ (by decide)]
  have hm' := fun m => holds_magic m [0x1f, 0x8b] [0x1f, 0x8b] rfl
  constructor
  · rintro ⟨⟨hf, ho, hs⟩, rfl⟩
    match vs, hf with
    | [v1, v2, v3, v4, v5], hf =>
      simp only [Shown.gzipHeader, FitsFields, fits_plain, fits_maybe, fits_magic, fits_unsigned, and_true] at hf
      obtain ⟨⟨m, -, rfl⟩, ⟨me, hme, rfl⟩, ⟨fl, hfl, rfl⟩, ⟨mt, hmt, rfl⟩, h5⟩ := hf
      obtain ⟨me, rfl⟩ := List.length_eq_one_iff.1 hme
      obtain ⟨fl, rfl⟩ := List.length_eq_one_iff.1 hfl
      simp only [Shown.gzipHeader, OkFields, ok_plain, ok_maybe, hm', ok_magic, ok_num, holds_none, and_true, true_and] at ho
      obtain rfl := ho
      refine ⟨me, fl, mt, hmt, ?_⟩
      rcases h5 with rfl | ⟨_, rfl, l, hl, rfl⟩
      · simp [Shown.gzipHeader, ShapedFields, ShapedField, shaped_magic, shaped_num, envOf,
          Env.set, Field.id, Pred.eval, Env.getAll, numeral_one] at hs
        refine .inl ⟨by omega, ?_, by simp only [numeral_one]⟩
        simp [Shown.gzipHeader, wire, wireFields, wireField, wire_magic, wire_unsigned _ [me] 1 rfl, wire_unsigned _ [fl] 1 rfl,
          wire_unsigned _ mt 4 hmt]
      · simp [Shown.gzipHeader, ShapedFields, ShapedField, shaped_magic, shaped_num, envOf,
          Env.set, Field.id, Pred.eval, Env.getAll, numeral_one] at hs
        refine .inr ⟨by omega, l, hl, ?_, by simp only [numeral_one]⟩
        simp [Shown.gzipHeader, wire, wireFields, wireField, wire_magic, wire_unsigned _ [me] 1 rfl, wire_unsigned _ [fl] 1 rfl,
          wire_unsigned _ mt 4 hmt, wire_unsigned _ l 2 hl]
  · have h1 := fun b => (numeral_one cfg.wire b).symm
    rintro ⟨me, fl, mt, hmt, ⟨hb, rfl, rfl⟩ | ⟨hb, l, hl, rfl, rfl⟩⟩
    · refine ⟨⟨?_, ?_, ?_⟩, ?_⟩
      · simp only [Shown.gzipHeader, FitsFields, fits_plain, fits_maybe, fits_magic, fits_unsigned, and_true]
        exact ⟨⟨_, rfl, rfl⟩, ⟨[me], rfl, by rw [numeral_one]⟩, ⟨[fl], rfl, by rw [numeral_one]⟩, ⟨mt, hmt, rfl⟩, .inl trivial⟩
      · simp only [Shown.gzipHeader, OkFields, ok_plain, ok_maybe, hm', ok_magic, ok_num, holds_none, and_true]
      · simp [Shown.gzipHeader, ShapedFields, ShapedField, shaped_magic, shaped_num, envOf,
          Env.set, Field.id, Pred.eval, Env.getAll]
        omega
      · rw [h1 me, h1 fl]
        simp [Shown.gzipHeader, wire, wireFields, wireField, wire_magic, wire_unsigned _ [me] 1 rfl, wire_unsigned _ [fl] 1 rfl,
          wire_unsigned _ mt 4 hmt]
    · refine ⟨⟨?_, ?_, ?_⟩, ?_⟩
      · simp only [Shown.gzipHeader, FitsFields, fits_plain, fits_maybe, fits_magic, fits_unsigned, and_true]
        exact ⟨⟨_, rfl, rfl⟩, ⟨[me], rfl, by rw [numeral_one]⟩, ⟨[fl], rfl, by rw [numeral_one]⟩, ⟨mt, hmt, rfl⟩, .inr ⟨_, rfl, l, hl, rfl⟩⟩
      · simp only [Shown.gzipHeader, OkFields, ok_plain, ok_maybe, hm', ok_magic, ok_num, holds_none, and_true]
      · simp [Shown.gzipHeader, ShapedFields, ShapedField, shaped_magic, shaped_num, envOf,
          Env.set, Field.id, Pred.eval, Env.getAll]
        omega
      · rw [h1 me, h1 fl]
        simp [Shown.gzipHeader, wire, wireFields, wireField, wire_magic, wire_unsigned _ [me] 1 rfl, wire_unsigned _ [fl] 1 rfl,
          wire_unsigned _ mt 4 hmt, wire_unsigned _ l 2 hl]

/-- Flags 0x18: the name is there. -/
example : (structCast be64 Shown.gzipHeader).run [0x1f, 0x8b, 8, 0x18, 0, 0, 1, 0, 0, 5] =
    (.done (.ok [held [0x1f, 0x8b], .int 8, .int 24, .int 256, .present (.int 5)]), []) :=
  (C112_gzip be64 _ _ _).2 ⟨8, 0x18, [0, 0, 1, 0], rfl, .inr ⟨by decide, [0, 5], rfl, rfl, rfl⟩⟩

/-- Flags 0x17: it is not. -/
example : (structCast be64 Shown.gzipHeader).run [0x1f, 0x8b, 8, 0x17, 0, 0, 1, 0, 0, 5] =
    (.done (.ok [held [0x1f, 0x8b], .int 8, .int 23, .int 256, .absent]), [0, 5]) :=
  (C112_gzip be64 _ _ _).2 ⟨8, 0x17, [0, 0, 1, 0], rfl, .inl ⟨by decide, rfl, rfl⟩⟩

theorem switch_tlv (b : Byte) (i : Nat) :
    switchIdx u8 (b.toNat : Int) [(i32, 1), (i32, 2)] = some i ↔ b = 1 ∧ i = 0 ∨ b = 2 ∧ i = 1 := by
  have key : ∀ k : Fin 256, switchIdx u8 (k.val : Int) [(i32, 1), (i32, 2)] =
      if k.val = 1 then some 0 else if k.val = 2 then some 1 else none := by decide +kernel
  have hb := b.toNat_lt
  have h := key ⟨b.toNat, hb⟩
  simp only at h
  rw [h]
  have e1 : b = 1 ↔ b.toNat = 1 := by rw [← UInt8.toNat_inj]; rfl
  have e2 : b = 2 ↔ b.toNat = 2 := by rw [← UInt8.toNat_inj]; rfl
  rw [e1, e2]
  split <;> (try split) <;> simp_all <;> omega

/-- C112. `tlv_record`: a tag, 1 or 2, and a numeral of four bytes, without or with a sign. -/
theorem C112_tlv (cfg : Cfg) (inp rest : List Byte) (vs : List Val) :
    (structCast cfg Shown.tlvRecord).run inp = (.done (.ok vs), rest) ↔
    ∃ n, n.length = 4 ∧
      (inp = [1] ++ n ++ rest ∧ vs = [.int 1, .var 0 (.int (numeral cfg.wire n))] ∨
       inp = [2] ++ n ++ rest ∧ vs = [.int 2, .var 1 (.int (signed cfg.wire n))]) := by
  rw [read_iff cfg _ (by decide)]
  have h1 : numeral cfg.wire [1] = 1 := numeral_one _ 1
  have h2 : numeral cfg.wire [2] = 2 := numeral_one _ 2
  have w1 : wireKind cfg.wire (.num u8 1) (.int 1) = [1] := by
    have := wire_unsigned cfg.wire [1] 1 rfl
    rwa [h1] at this
  have w2 : wireKind cfg.wire (.num u8 1) (.int 2) = [2] := by
    have := wire_unsigned cfg.wire [2] 1 rfl
    rwa [h2] at this
  constructor
  · rintro ⟨⟨hf, ho, hs⟩, rfl⟩
    match vs, hf with
    | [v1, .var i v], hf =>
      simp only [Shown.tlvRecord, FitsFields, FitsField, fits_unsigned, and_true] at hf
      obtain ⟨⟨t, ht, rfl⟩, hf⟩ := hf
      obtain ⟨t, rfl⟩ := List.length_eq_one_iff.1 ht
      simp [Shown.tlvRecord, ShapedFields, ShapedField, shaped_num, envOf, Env.set, Field.id, Deducer.eval, numeral_one,
        switch_tlv] at hs
      rcases hs.1 with ⟨rfl, rfl⟩ | ⟨rfl, rfl⟩
      · simp only [FitsAlts, fits_unsigned] at hf
        obtain ⟨n, hn, rfl⟩ := hf
        refine ⟨n, hn, .inl ⟨?_, by rw [h1]; rfl⟩⟩
        simp [Shown.tlvRecord, wire, wireFields, wireField, wireAlts, h1, w1, wire_unsigned _ n 4 hn]
      · simp only [FitsAlts, fits_signed] at hf
        obtain ⟨n, hn, rfl⟩ := hf
        refine ⟨n, hn, .inr ⟨?_, by rw [h2]; rfl⟩⟩
        simp [Shown.tlvRecord, wire, wireFields, wireField, wireAlts, h2, w2, wire_signed _ n 4 hn]
  · rintro ⟨n, hn, ⟨rfl, rfl⟩ | ⟨rfl, rfl⟩⟩
    · refine ⟨⟨?_, ?_, ?_⟩, ?_⟩
      · simp only [Shown.tlvRecord, FitsFields, FitsField, FitsAlts, fits_unsigned, and_true]
        exact ⟨⟨[1], rfl, by rw [h1]; rfl⟩, n, hn, rfl⟩
      · simp [Shown.tlvRecord, OkFields, OkField, OkAlts, ok_num, holds_none]
      · simp [Shown.tlvRecord, ShapedFields, ShapedField, ShapedAlts, shaped_num, envOf, Env.set, Field.id, Deducer.eval]
        decide
      · simp [Shown.tlvRecord, wire, wireFields, wireField, wireAlts, w1, wire_unsigned _ n 4 hn]
    · refine ⟨⟨?_, ?_, ?_⟩, ?_⟩
      · simp only [Shown.tlvRecord, FitsFields, FitsField, FitsAlts, fits_signed, fits_unsigned, and_true]
        exact ⟨⟨[2], rfl, by rw [h2]; rfl⟩, n, hn, rfl⟩
      · simp [Shown.tlvRecord, OkFields, OkField, OkAlts, ok_num, holds_none]
      · simp [Shown.tlvRecord, ShapedFields, ShapedField, ShapedAlts, shaped_num, envOf, Env.set, Field.id, Deducer.eval]
        decide
      · simp [Shown.tlvRecord, wire, wireFields, wireField, wireAlts, w2, wire_signed _ n 4 hn]

example : (structCast be64 Shown.tlvRecord).run [2, 0xff, 0xff, 0xff, 0xfe, 7] =
    (.done (.ok [.int 2, .var 1 (.int (-2))]), [7]) :=
  (C112_tlv be64 _ _ _).2 ⟨[0xff, 0xff, 0xff, 0xfe], rfl, .inr ⟨rfl, rfl⟩⟩

/-- Any other tag is refused. -/
example (vs : List Val) (rest : List Byte) :
    (structCast be64 Shown.tlvRecord).run [3, 0, 0, 0, 1] ≠ (.done (.ok vs), rest) := by
  intro h
  obtain ⟨n, -, h | h⟩ := (C112_tlv be64 _ _ _).1 h <;> simp at h

/-- C112. `wav_format`: what the page says of each number, of the numbers in the bytes. -/
theorem C112_wav (cfg : Cfg) (inp rest : List Byte) :
    (∃ vs, (structCast cfg Shown.wavFormat).run inp = (.done (.ok vs), rest)) ↔
    ∃ size format channels rate bits : List Byte, size.length = 4 ∧ format.length = 2 ∧ channels.length = 2 ∧
      rate.length = 4 ∧ bits.length = 2 ∧
      numeral cfg.wire size = 16 ∧ numeral cfg.wire format = 1 ∧
      (numeral cfg.wire channels = 1 ∨ numeral cfg.wire channels = 2) ∧ 8000 ≤ numeral cfg.wire rate ∧
      (numeral cfg.wire bits = 8 ∨ numeral cfg.wire bits = 16 ∨ numeral cfg.wire bits = 24) ∧
      inp = [0x66, 0x6d, 0x74, 0x20] ++ size ++ format ++ channels ++ rate ++ bits ++ rest := by
  have hm' := fun m => holds_magic m [0x66, 0x6d, 0x74, 0x20] [0x66, 0x6d, 0x74, 0x20] rfl
  have hw : ∀ (m a b c d e : List Byte), a.length = 4 → b.length = 2 → c.length = 2 → d.length = 4 → e.length = 2 →
      wire cfg Shown.wavFormat [held m, .int (numeral cfg.wire a), .int (numeral cfg.wire b), .int (numeral cfg.wire c),
        .int (numeral cfg.wire d), .int (numeral cfg.wire e)] = m ++ (a ++ (b ++ (c ++ (d ++ e)))) := by
    intro m a b c d e ha hb hc hd he
    simp only [Shown.wavFormat, wire, wireFields, wireField, wire_magic, wire_unsigned _ a 4 ha, wire_unsigned _ b 2 hb,
      wire_unsigned _ c 2 hc, wire_unsigned _ d 4 hd, wire_unsigned _ e 2 he, List.append_nil]
  have ho : ∀ (m a b c d e : List Byte), a.length = 4 → b.length = 2 → c.length = 2 → d.length = 4 → e.length = 2 →
      (OkFields Shown.wavFormat [held m, .int (numeral cfg.wire a), .int (numeral cfg.wire b), .int (numeral cfg.wire c),
        .int (numeral cfg.wire d), .int (numeral cfg.wire e)] ↔ m = [0x66, 0x6d, 0x74, 0x20] ∧
        numeral cfg.wire a = 16 ∧ numeral cfg.wire b = 1 ∧
        (numeral cfg.wire c = 1 ∨ numeral cfg.wire c = 2) ∧ 8000 ≤ numeral cfg.wire d ∧
        (numeral cfg.wire e = 8 ∨ numeral cfg.wire e = 16 ∨ numeral cfg.wire e = 24)) := by
    intro m a b c d e ha hb hc hd he
    simp only [Shown.wavFormat, OkFields, ok_plain, ok_magic, ok_num, hm', true_and, and_true]
    simp [Holds, Constraint.check, CmpOp.holds, conv_number _ _ _ ha, conv_number _ _ _ hb, conv_number _ _ _ hc,
      conv_number _ _ _ hd, conv_number _ _ _ he]
    omega
  constructor
  · rintro ⟨vs, h⟩
    obtain ⟨⟨hf, h2, hs⟩, rfl⟩ := (read_iff cfg _ (by decide) _ _ _).1 h
    match vs, hf with
    | [v1, v2, v3, v4, v5, v6], hf =>
      simp only [Shown.wavFormat, FitsFields, fits_plain, fits_magic, fits_unsigned, and_true] at hf
      obtain ⟨⟨m, -, rfl⟩, ⟨a, ha, rfl⟩, ⟨b, hb, rfl⟩, ⟨c, hc, rfl⟩, ⟨d, hd, rfl⟩, e, he, rfl⟩ := hf
      obtain ⟨rfl, k1, k2, k3, k4, k5⟩ := (ho m a b c d e ha hb hc hd he).1 h2
      refine ⟨a, b, c, d, e, ha, hb, hc, hd, he, k1, k2, k3, k4, k5, ?_⟩
      rw [hw _ a b c d e ha hb hc hd he]
      simp
  · rintro ⟨a, b, c, d, e, ha, hb, hc, hd, he, k1, k2, k3, k4, k5, rfl⟩
    refine ⟨[held [0x66, 0x6d, 0x74, 0x20], .int (numeral cfg.wire a), .int (numeral cfg.wire b), .int (numeral cfg.wire c),
        .int (numeral cfg.wire d), .int (numeral cfg.wire e)], (read_iff cfg _ (by decide) _ _ _).2 ⟨⟨?_, ?_, ?_⟩, ?_⟩⟩
    · simp only [Shown.wavFormat, FitsFields, fits_plain, fits_magic, fits_unsigned, and_true]
      exact ⟨⟨_, rfl, rfl⟩, ⟨a, ha, rfl⟩, ⟨b, hb, rfl⟩, ⟨c, hc, rfl⟩, ⟨d, hd, rfl⟩, e, he, rfl⟩
    · exact (ho _ a b c d e ha hb hc hd he).2 ⟨rfl, k1, k2, k3, k4, k5⟩
    · simp [Shown.wavFormat, ShapedFields, ShapedField, shaped_magic, shaped_num]
    · rw [hw _ a b c d e ha hb hc hd he]
      simp

/-- 8000 samples a second in two channels of sixteen bits. -/
example : ∃ vs, (structCast be64 Shown.wavFormat).run
    [0x66, 0x6d, 0x74, 0x20, 0, 0, 0, 16, 0, 1, 0, 2, 0, 0, 0x1f, 0x40, 0, 16] = (.done (.ok vs), []) :=
  (C112_wav be64 _ _).2 ⟨[0, 0, 0, 16], [0, 1], [0, 2], [0, 0, 0x1f, 0x40], [0, 16], rfl, rfl, rfl, rfl, rfl, rfl, rfl,
    .inr rfl, by decide, .inr (.inl rfl), rfl⟩

/-- C112. `firmware_image`: the length of the payload has four bytes, of which only those up
to sixteen mebibytes are accepted. -/
theorem C112_firmware (cfg : Cfg) (hc : Platform cfg) (inp rest : List Byte) (vs : List Val) :
    (structCast cfg Shown.firmwareImage).run inp = (.done (.ok vs), rest) ↔
    ∃ version n payload, version.length = 2 ∧ n.length = 4 ∧ payload.length = numeral cfg.wire n ∧
      payload.length ≤ 16777216 ∧ inp = [0x46, 0x57] ++ version ++ n ++ payload ++ rest ∧
      vs = [held [0x46, 0x57], .int (numeral cfg.wire version), .int payload.length, held payload] := by
  rw [read_iff cfg _ (by decide)]
  have hm' := fun m => holds_magic m [0x46, 0x57] [0x46, 0x57] rfl
  constructor
  · rintro ⟨⟨hf, ho, hs⟩, rfl⟩
    match vs, hf with
    | [v1, v2, v3, v4], hf =>
      simp only [Shown.firmwareImage, FitsFields, fits_plain, fits_magic, fits_unsigned, fits_held, storage_small cfg hc,
        and_true] at hf
      obtain ⟨⟨m, -, rfl⟩, ⟨w, hw, rfl⟩, ⟨n, hn, rfl⟩, t, ht, rfl⟩ := hf
      simp only [Shown.firmwareImage, OkFields, ok_plain, hm', ok_magic, ok_held, ok_num, holds_none, and_true,
        true_and] at ho
      simp [Shown.firmwareImage, ShapedFields, ShapedField, shaped_held, shaped_magic, shaped_num, LenSpec.eval, envOf,
        Env.set, Field.id, toSz_number cfg hc n (by omega)] at hs
      subst ho
      exact ⟨w, n, t, hw, hn, hs.symm, ht, by
        simp [Shown.firmwareImage, wire, wireFields, wireField, wire_magic, wire_held, wire_unsigned _ w 2 hw,
          wire_unsigned _ n 4 hn], by rw [hs]⟩
  · rintro ⟨w, n, t, hw, hn, ht, hl, rfl, rfl⟩
    refine ⟨⟨?_, ?_, ?_⟩, ?_⟩
    · simp only [Shown.firmwareImage, FitsFields, fits_plain, fits_magic, fits_unsigned, fits_held, storage_small cfg hc,
        and_true]
      exact ⟨⟨_, rfl, rfl⟩, ⟨w, hw, rfl⟩, ⟨n, hn, by rw [ht]⟩, t, hl, rfl⟩
    · simp only [Shown.firmwareImage, OkFields, ok_plain, hm', ok_magic, ok_held, ok_num, holds_none, and_true]
    · simp [Shown.firmwareImage, ShapedFields, ShapedField, shaped_held, shaped_magic, shaped_num, LenSpec.eval, envOf,
        Env.set, Field.id, ht, toSz_number cfg hc n (by omega)]
    · simp [Shown.firmwareImage, wire, wireFields, wireField, wire_magic, wire_held, ht, wire_unsigned _ w 2 hw,
        wire_unsigned _ n 4 hn]

example : (structCast be64 Shown.firmwareImage).run [0x46, 0x57, 1, 2, 0, 0, 0, 1, 7, 8] =
    (.done (.ok [held [0x46, 0x57], .int 258, .int 1, held [7]]), [8]) :=
  (C112_firmware be64 ⟨.inr rfl, rfl⟩ _ _ _).2 ⟨[1, 2], [0, 0, 0, 1], [7], rfl, rfl, rfl, by decide, rfl, rfl⟩

/-- C112. `heartbeat`: six bytes. -/
theorem C112_heartbeat (cfg : Cfg) (inp rest : List Byte) (vs : List Val) :
    (structCast cfg Shown.heartbeat).run inp = (.done (.ok vs), rest) ↔
    ∃ n, n.length = 4 ∧ inp = [0x48, 0x42] ++ n ++ rest ∧ vs = [held [0x48, 0x42], .int (numeral cfg.wire n)] := by
  rw [read_iff cfg _ (by decide)]
  have hm' := fun m => holds_magic m [0x48, 0x42] [0x48, 0x42] rfl
  constructor
  · rintro ⟨⟨hf, ho, -⟩, rfl⟩
    match vs, hf with
    | [v1, v2], hf =>
      simp only [Shown.heartbeat, FitsFields, fits_plain, fits_magic, fits_unsigned, and_true] at hf
      obtain ⟨⟨m, -, rfl⟩, n, hn, rfl⟩ := hf
      simp only [Shown.heartbeat, OkFields, ok_plain, hm', ok_magic, ok_num, holds_none, and_true, true_and] at ho
      subst ho
      exact ⟨n, hn, by simp [Shown.heartbeat, wire, wireFields, wireField, wire_magic, wire_unsigned _ n 4 hn], rfl⟩
  · rintro ⟨n, hn, rfl, rfl⟩
    refine ⟨⟨?_, ?_, ?_⟩, ?_⟩
    · simp only [Shown.heartbeat, FitsFields, fits_plain, fits_magic, fits_unsigned, and_true]
      exact ⟨⟨_, rfl, rfl⟩, n, hn, rfl⟩
    · simp only [Shown.heartbeat, OkFields, ok_plain, hm', ok_magic, ok_num, holds_none, and_true]
    · simp [Shown.heartbeat, ShapedFields, ShapedField, shaped_magic, shaped_num]
    · simp [Shown.heartbeat, wire, wireFields, wireField, wire_magic, wire_unsigned _ n 4 hn]

/-- C112. `bmp_header`: fourteen bytes. -/
theorem C112_bmp (cfg : Cfg) (inp rest : List Byte) (vs : List Val) :
    (structCast cfg Shown.bmpHeader).run inp = (.done (.ok vs), rest) ↔
    ∃ size reserved offset, size.length = 4 ∧ reserved.length = 4 ∧ offset.length = 4 ∧
      inp = [0x42, 0x4d] ++ size ++ reserved ++ offset ++ rest ∧
      vs = [held [0x42, 0x4d], .int (numeral cfg.wire size), .int (numeral cfg.wire reserved),
        .int (numeral cfg.wire offset)] := by
  rw [read_iff cfg _ (by decide)]
  have hm' := fun m => holds_magic m [0x42, 0x4d] [0x42, 0x4d] rfl
  constructor
  · rintro ⟨⟨hf, ho, -⟩, rfl⟩
    match vs, hf with
    | [v1, v2, v3, v4], hf =>
      simp only [Shown.bmpHeader, FitsFields, fits_plain, fits_magic, fits_unsigned, and_true] at hf
      obtain ⟨⟨m, -, rfl⟩, ⟨a, ha, rfl⟩, ⟨b, hb, rfl⟩, c, hc, rfl⟩ := hf
      simp only [Shown.bmpHeader, OkFields, ok_plain, hm', ok_magic, ok_num, holds_none, and_true, true_and] at ho
      subst ho
      exact ⟨a, b, c, ha, hb, hc, by simp [Shown.bmpHeader, wire, wireFields, wireField, wire_magic,
        wire_unsigned _ a 4 ha, wire_unsigned _ b 4 hb, wire_unsigned _ c 4 hc], rfl⟩
  · rintro ⟨a, b, c, ha, hb, hc, rfl, rfl⟩
    refine ⟨⟨?_, ?_, ?_⟩, ?_⟩
    · simp only [Shown.bmpHeader, FitsFields, fits_plain, fits_magic, fits_unsigned, and_true]
      exact ⟨⟨_, rfl, rfl⟩, ⟨a, ha, rfl⟩, ⟨b, hb, rfl⟩, c, hc, rfl⟩
    · simp only [Shown.bmpHeader, OkFields, ok_plain, hm', ok_magic, ok_num, holds_none, and_true]
    · simp [Shown.bmpHeader, ShapedFields, ShapedField, shaped_magic, shaped_num]
    · simp [Shown.bmpHeader, wire, wireFields, wireField, wire_magic,
        wire_unsigned _ a 4 ha, wire_unsigned _ b 4 hb, wire_unsigned _ c 4 hc]

/-- C112. `partition_entry`: any eight bytes. -/
theorem C112_partition (cfg : Cfg) (inp rest : List Byte) (vs : List Val) :
    (structCast cfg Shown.partitionEntry).run inp = (.done (.ok vs), rest) ↔
    ∃ lba count, lba.length = 4 ∧ count.length = 4 ∧ inp = lba ++ count ++ rest ∧
      vs = [.int (numeral cfg.wire lba), .int (numeral cfg.wire count)] := by
  rw [read_iff cfg _ (by decide)]
  constructor
  · rintro ⟨⟨hf, -, -⟩, rfl⟩
    match vs, hf with
    | [v1, v2], hf =>
      simp only [Shown.partitionEntry, FitsFields, fits_plain, fits_unsigned, and_true] at hf
      obtain ⟨⟨a, ha, rfl⟩, b, hb, rfl⟩ := hf
      exact ⟨a, b, ha, hb, by simp [Shown.partitionEntry, wire, wireFields, wireField,
        wire_unsigned _ a 4 ha, wire_unsigned _ b 4 hb], rfl⟩
  · rintro ⟨a, b, ha, hb, rfl, rfl⟩
    refine ⟨⟨?_, ?_, ?_⟩, ?_⟩
    · simp only [Shown.partitionEntry, FitsFields, fits_plain, fits_unsigned, and_true]
      exact ⟨⟨a, ha, rfl⟩, b, hb, rfl⟩
    · simp only [Shown.partitionEntry, OkFields, ok_plain, ok_num, holds_none, and_true]
    · simp [Shown.partitionEntry, ShapedFields, ShapedField, shaped_num]
    · simp [Shown.partitionEntry, wire, wireFields, wireField, wire_unsigned _ a 4 ha, wire_unsigned _ b 4 hb]

/-- C112. `extent_record`: a length and four bytes, which have a sign exactly if the length is
over four. -/
theorem C112_extent (cfg : Cfg) (inp rest : List Byte) (vs : List Val) :
    (structCast cfg Shown.extentRecord).run inp = (.done (.ok vs), rest) ↔
    ∃ len n, len.length = 4 ∧ n.length = 4 ∧ inp = len ++ n ++ rest ∧
      vs = [.int (numeral cfg.wire len), if numeral cfg.wire len ≤ 4 then .var 0 (.int (numeral cfg.wire n))
        else .var 1 (.int (signed cfg.wire n))] := by
  rw [read_iff cfg _ (by decide)]
  have hl : ∀ (v : Val) (x : Nat) i, ladderIdx (envOf Shown.extentRecord [.int x, v])
      [⟨["length"], fun | [.int l] => l ≤ 4 | _ => false⟩, ⟨["length"], fun | [.int l] => l > 4 | _ => false⟩] =
      .ok (some i) ↔ i = if x ≤ 4 then 0 else 1 := by
    intro v x i
    simp only [ladderIdx, Pred.eval, Env.getAll, Shown.extentRecord, envOf, Field.id]
    by_cases hx : x ≤ 4
    · simp [hx, Env.set, eq_comm]
      have : (x : Int) ≤ 4 := by omega
      simp [this]
    · have h1 : ¬ (x : Int) ≤ 4 := by omega
      have h2 : (4 : Int) < x := by omega
      simp [hx, Env.set, h1, h2, eq_comm]
  constructor
  · rintro ⟨⟨hf, -, hs⟩, rfl⟩
    match vs, hf with
    | [v1, .var i v], hf =>
      simp only [Shown.extentRecord, FitsFields, FitsField, fits_unsigned, and_true] at hf
      obtain ⟨⟨a, ha, rfl⟩, hf⟩ := hf
      have hi : i = if numeral cfg.wire a ≤ 4 then 0 else 1 := by
        simp only [ShapedFields, ShapedField, Shown.extentRecord, Deducer.eval] at hs
        exact (hl _ _ _).1 hs.2.1.1
      by_cases h4 : numeral cfg.wire a ≤ 4
      · rw [if_pos h4] at hi
        subst hi
        simp only [FitsAlts, fits_unsigned] at hf
        obtain ⟨n, hn, rfl⟩ := hf
        exact ⟨a, n, ha, hn, by simp [Shown.extentRecord, wire, wireFields, wireField, wireAlts,
          wire_unsigned _ a 4 ha, wire_unsigned _ n 4 hn], by rw [if_pos h4]⟩
      · rw [if_neg h4] at hi
        subst hi
        simp only [FitsAlts, fits_signed] at hf
        obtain ⟨n, hn, rfl⟩ := hf
        exact ⟨a, n, ha, hn, by simp [Shown.extentRecord, wire, wireFields, wireField, wireAlts,
          wire_unsigned _ a 4 ha, wire_signed _ n 4 hn], by rw [if_neg h4]⟩
  · rintro ⟨a, n, ha, hn, rfl, rfl⟩
    by_cases h4 : numeral cfg.wire a ≤ 4
    · rw [if_pos h4]
      refine ⟨⟨?_, ?_, ?_⟩, ?_⟩
      · simp only [Shown.extentRecord, FitsFields, FitsField, FitsAlts, fits_unsigned, and_true]
        exact ⟨⟨a, ha, rfl⟩, n, hn, rfl⟩
      · simp [Shown.extentRecord, OkFields, OkField, OkAlts, ok_num, holds_none]
      · refine ⟨by simp [ShapedField, shaped_num], ⟨?_, by simp [ShapedAlts, shaped_num]⟩, trivial⟩
        exact (hl _ _ _).2 (by rw [if_pos h4])
      · simp [Shown.extentRecord, wire, wireFields, wireField, wireAlts, wire_unsigned _ a 4 ha, wire_unsigned _ n 4 hn]
    · rw [if_neg h4]
      refine ⟨⟨?_, ?_, ?_⟩, ?_⟩
      · simp only [Shown.extentRecord, FitsFields, FitsField, FitsAlts, fits_unsigned, fits_signed, and_true]
        exact ⟨⟨a, ha, rfl⟩, n, hn, rfl⟩
      · simp [Shown.extentRecord, OkFields, OkField, OkAlts, ok_num, holds_none]
      · refine ⟨by simp [ShapedField, shaped_num], ⟨?_, by simp [ShapedAlts, shaped_num]⟩, trivial⟩
        exact (hl _ _ _).2 (by rw [if_neg h4])
      · simp [Shown.extentRecord, wire, wireFields, wireField, wireAlts, wire_unsigned _ a 4 ha, wire_signed _ n 4 hn]

/-- Numbers of two bytes as a container holds them. -/
def pairs (o : Endian) (ps : List (Byte × Byte)) : Val := .seq (ps.map fun p => .int (numeral o [p.1, p.2]))

/-- Their bytes. -/
def unpaired (ps : List (Byte × Byte)) : List Byte := ps.flatMap fun p => [p.1, p.2]

theorem pairs_fit (o : Endian) (vs : List Val) :
    (∀ v ∈ vs, ElemFits (.scalar u16) v) ↔ ∃ ps : List (Byte × Byte), vs = ps.map fun p => .int (numeral o [p.1, p.2]) := by
  have h1 : ∀ v, ElemFits (.scalar u16) v ↔ ∃ p : Byte × Byte, v = .int (numeral o [p.1, p.2]) := by
    intro v
    have := fits_unsigned ⟨o, o, false, 8, 0⟩ 2 v
    have e : ElemFits (.scalar u16) v ↔ FitsKind ⟨o, o, false, 8, 0⟩ (.num u16 2) v := by
      cases v <;> simp [ElemFits, FitsKind, ScalarFits, ScalarTy.size]
    rw [e, this]
    constructor
    · rintro ⟨bs, hb, rfl⟩
      match bs, hb with
      | [a, b], _ => exact ⟨(a, b), rfl⟩
    · rintro ⟨p, rfl⟩
      exact ⟨[p.1, p.2], rfl, rfl⟩
  induction vs with
  | nil => simp
  | cons v vs ih =>
    rw [List.forall_mem_cons]
    refine (and_congr (h1 v) ih).trans ?_
    constructor
    · rintro ⟨⟨b, rfl⟩, bs, rfl⟩
      exact ⟨b :: bs, rfl⟩
    · rintro ⟨_ | ⟨b, bs⟩, h⟩
      · cases h
      · cases h
        exact ⟨⟨b, rfl⟩, bs, rfl⟩

theorem fits_pairs (cfg : Cfg) (l : LenSpec) (v : Val) :
    FitsKind cfg (.vec (.scalar u16) l none) v ↔
      ∃ ps : List (Byte × Byte), StorageFits cfg none 2 ps.length ∧ v = pairs cfg.wire ps := by
  cases v with
  | seq vs =>
    simp only [FitsKind, pairs_fit cfg.wire, pairs, Val.seq.injEq]
    constructor
    · rintro ⟨h, bs, rfl⟩; exact ⟨bs, by simpa [ElemTy.size, ScalarTy.size] using h, rfl⟩
    · rintro ⟨bs, h, rfl⟩; exact ⟨by simpa [ElemTy.size, ScalarTy.size] using h, bs, rfl⟩
  | _ => simp [FitsKind, pairs]

theorem wire_pairs (o : Endian) (ps : List (Byte × Byte)) (l : LenSpec) :
    wireKind o (.vec (.scalar u16) l none) (pairs o ps) = unpaired ps := by
  simp only [pairs, wireKind, unpaired]
  induction ps with
  | nil => rfl
  | cons p ps ih =>
    simp only [List.map_cons, List.flatMap_cons, ih]
    have := wire_unsigned o [p.1, p.2] 2 rfl
    simp only [wireKind, ScalarTy.size] at this
    simp only [wireElem, ScalarTy.size, this]

theorem shaped_pairs (cfg : Cfg) (env : Env) (l : LenSpec) (b : Option Nat) (o : Endian) (ps : List (Byte × Byte)) :
    ShapedKind cfg env (.vec (.scalar u16) l b) (pairs o ps) ↔ l.eval cfg env = .ok ps.length := by
  simp [pairs, ShapedKind]

theorem ok_pairs (l : LenSpec) (b : Option Nat) (v : Val) : OkKind (.vec (.scalar u16) l b) v ↔ True := by
  simp [OkKind]

theorem storage_pairs (cfg : Cfg) (hc : Platform cfg) (n : Nat) :
    StorageFits cfg none 2 n ↔ n ≤ 8 * 1024 * 1024 := by
  obtain ⟨h1, h2⟩ := hc
  simp only [StorageFits, Option.getD_none, h2, Cfg.ptrdiffMax, Cfg.szMod]
  rcases h1 with h | h <;> rw [h] <;> omega

/-- C112. `telemetry_frame`: the count is of samples of two bytes, and sixteen mebibytes are
half as many. -/
theorem C112_telemetry (cfg : Cfg) (hc : Platform cfg) (inp rest : List Byte) (vs : List Val) :
    (structCast cfg Shown.telemetryFrame).run inp = (.done (.ok vs), rest) ↔
    ∃ device revision n samples, device.length = 2 ∧ (revision = 1 ∨ revision = 2) ∧ n.length = 4 ∧
      samples.length = numeral cfg.wire n ∧ samples.length ≤ 8388608 ∧
      inp = [0xab, 0xcd] ++ device ++ [revision] ++ n ++ unpaired samples ++ rest ∧
      vs = [held [0xab, 0xcd], .int (numeral cfg.wire device), .int revision.toNat, .int samples.length,
        pairs cfg.wire samples] := by
  rw [read_iff cfg _ (by decide)]
  have hm' := fun m => holds_magic m [0xab, 0xcd] [0xab, 0xcd] rfl
  have hr : ∀ r : Byte, Holds (.anyOf u8 [1, 2]) (.int (numeral cfg.wire [r])) ↔ r = 1 ∨ r = 2 := by
    intro r
    have hb := r.toNat_lt
    have e1 : r = 1 ↔ r.toNat = 1 := by rw [← UInt8.toNat_inj]; rfl
    have e2 : r = 2 ↔ r.toNat = 2 := by rw [← UInt8.toNat_inj]; rfl
    have hv : u8.conv (r.toNat : Int) = r.toNat := by
      have := conv_number cfg.wire [r] 1 rfl
      rwa [numeral_one] at this
    simp [Holds, Constraint.check, hv, numeral_one, e1, e2]
    omega
  constructor
  · rintro ⟨⟨hf, ho, hs⟩, rfl⟩
    match vs, hf with
    | [v1, v2, v3, v4, v5], hf =>
      simp only [Shown.telemetryFrame, FitsFields, fits_plain, fits_magic, fits_unsigned, fits_pairs, storage_pairs cfg hc,
        and_true] at hf
      obtain ⟨⟨m, -, rfl⟩, ⟨d, hd, rfl⟩, ⟨r, hr1, rfl⟩, ⟨n, hn, rfl⟩, t, ht, rfl⟩ := hf
      obtain ⟨r, rfl⟩ := List.length_eq_one_iff.1 hr1
      simp only [Shown.telemetryFrame, OkFields, ok_plain, hm', hr, ok_magic, ok_pairs, ok_num, holds_none, and_true,
        true_and] at ho
      simp [Shown.telemetryFrame, ShapedFields, ShapedField, shaped_pairs, shaped_magic, shaped_num, LenSpec.eval, envOf,
        Env.set, Field.id, toSz_number cfg hc n (by omega)] at hs
      obtain ⟨rfl, ho⟩ := ho
      exact ⟨d, r, n, t, hd, ho, hn, hs.symm, ht, by
        simp [Shown.telemetryFrame, wire, wireFields, wireField, wire_magic, wire_pairs, wire_unsigned _ d 2 hd,
          wire_unsigned _ [r] 1 rfl, wire_unsigned _ n 4 hn], by rw [hs, numeral_one]⟩
  · rintro ⟨d, r, n, t, hd, ho, hn, ht, hl, rfl, rfl⟩
    rw [← numeral_one cfg.wire r]
    refine ⟨⟨?_, ?_, ?_⟩, ?_⟩
    · simp only [Shown.telemetryFrame, FitsFields, fits_plain, fits_magic, fits_unsigned, fits_pairs, storage_pairs cfg hc,
        and_true]
      exact ⟨⟨_, rfl, rfl⟩, ⟨d, hd, rfl⟩, ⟨[r], rfl, rfl⟩, ⟨n, hn, by rw [ht]⟩, t, hl, rfl⟩
    · simp only [Shown.telemetryFrame, OkFields, ok_plain, hm', hr, ok_magic, ok_pairs, ok_num, holds_none, and_true,
        true_and]
      exact ho
    · simp [Shown.telemetryFrame, ShapedFields, ShapedField, shaped_pairs, shaped_magic, shaped_num, LenSpec.eval, envOf,
        Env.set, Field.id, ht, toSz_number cfg hc n (by omega)]
    · simp [Shown.telemetryFrame, wire, wireFields, wireField, wire_magic, wire_pairs, ht, wire_unsigned _ d 2 hd,
          wire_unsigned _ [r] 1 rfl, wire_unsigned _ n 4 hn]

/-- C112. `image_tile`: as many numbers as width times height, if they fit into sixteen
mebibytes. -/
theorem C112_tile (cfg : Cfg) (hc : Platform cfg) (inp rest : List Byte) (vs : List Val) :
    (structCast cfg Shown.imageTile).run inp = (.done (.ok vs), rest) ↔
    ∃ width height pixels, width.length = 2 ∧ height.length = 2 ∧
      pixels.length = numeral cfg.wire width * numeral cfg.wire height ∧ pixels.length ≤ 8388608 ∧
      inp = width ++ height ++ unpaired pixels ++ rest ∧
      vs = [.int (numeral cfg.wire width), .int (numeral cfg.wire height), pairs cfg.wire pixels] := by
  rw [read_iff cfg _ (by decide)]
  have hz : ∀ w h : List Byte, w.length = 2 → h.length = 2 →
      cfg.toSz (numeral cfg.wire w * numeral cfg.wire h) = numeral cfg.wire w * numeral cfg.wire h := by
    intro w h hw hh
    have h1 := numeral_lt cfg.wire w
    have h2 := numeral_lt cfg.wire h
    rw [hw] at h1
    rw [hh] at h2
    have : numeral cfg.wire w * numeral cfg.wire h < 256 ^ 2 * 256 ^ 2 := Nat.mul_lt_mul'' h1 h2
    rw [Cfg.toSz, ← Int.natCast_mul, residue_ofNat, Nat.mod_eq_of_lt]
    rcases hc.1 with h | h <;> rw [h] <;> omega
  constructor
  · rintro ⟨⟨hf, -, hs⟩, rfl⟩
    match vs, hf with
    | [v1, v2, v3], hf =>
      simp only [Shown.imageTile, FitsFields, fits_plain, fits_unsigned, fits_pairs, storage_pairs cfg hc, and_true] at hf
      obtain ⟨⟨w, hw, rfl⟩, ⟨h, hh, rfl⟩, t, ht, rfl⟩ := hf
      simp [Shown.imageTile, ShapedFields, ShapedField, shaped_pairs, shaped_num, LenSpec.eval, Calc.eval, Env.getAll,
        envOf, Env.set, Field.id, hz w h hw hh] at hs
      exact ⟨w, h, t, hw, hh, hs.symm, ht, by
        simp [Shown.imageTile, wire, wireFields, wireField, wire_pairs, wire_unsigned _ w 2 hw, wire_unsigned _ h 2 hh],
        rfl⟩
  · rintro ⟨w, h, t, hw, hh, ht, hl, rfl, rfl⟩
    refine ⟨⟨?_, ?_, ?_⟩, ?_⟩
    · simp only [Shown.imageTile, FitsFields, fits_plain, fits_unsigned, fits_pairs, storage_pairs cfg hc, and_true]
      exact ⟨⟨w, hw, rfl⟩, ⟨h, hh, rfl⟩, t, hl, rfl⟩
    · simp only [Shown.imageTile, OkFields, ok_plain, ok_pairs, ok_num, holds_none, and_true]
    · simp [Shown.imageTile, ShapedFields, ShapedField, shaped_pairs, shaped_num, LenSpec.eval, Calc.eval, Env.getAll,
        envOf, Env.set, Field.id, hz w h hw hh, ht]
    · simp [Shown.imageTile, wire, wireFields, wireField, wire_pairs, wire_unsigned _ w 2 hw, wire_unsigned _ h 2 hh]

theorem fits_nested (cfg : Cfg) (id : String) (v : Val) :
    FitsKind cfg (.record [Shown.basic id u32 4]) v ↔
      ∃ bs : List Byte, bs.length = 4 ∧ v = .seq [.int (numeral cfg.wire bs)] := by
  cases v with
  | seq vs =>
    match vs with
    | [] => simp [FitsKind, FitsFields]
    | [w] =>
      have := fits_unsigned cfg 4 w
      simp only [FitsKind.eq_5, FitsFields, fits_plain, and_true, Val.seq.injEq, List.cons.injEq]
      exact this
    | _ :: _ :: _ => simp [FitsKind, FitsFields]
  | _ => simp [FitsKind]

/-- C112. `tagged`: one of two tags and four bytes. -/
theorem C112_tagged (cfg : Cfg) (inp rest : List Byte) (vs : List Val) :
    (structCast cfg Shown.tagged).run inp = (.done (.ok vs), rest) ↔
    ∃ tag n i, tag.length = 4 ∧ n.length = 4 ∧
      (numeral cfg.wire tag = 0xcafed00d ∧ i = 0 ∨ numeral cfg.wire tag = 0xdeadbeef ∧ i = 1) ∧
      inp = tag ++ n ++ rest ∧ vs = [.int (numeral cfg.wire tag), .var i (.seq [.int (numeral cfg.wire n)])] := by
  rw [read_iff cfg _ (by decide)]
  have hsw : ∀ (t : List Byte) (v : Val) (i : Nat), t.length = 4 →
      ((Deducer.matchField "tag" u32 [(u32, 0xcafed00d), (u32, 0xdeadbeef)]).eval
        (envOf Shown.tagged [.int (numeral cfg.wire t), v]) = .ok (some i) ↔
      (numeral cfg.wire t = 0xcafed00d ∧ i = 0 ∨ numeral cfg.wire t = 0xdeadbeef ∧ i = 1)) := by
    intro t v i ht
    have hc := conv_number cfg.wire t 4 ht
    have e : u32.common u32 = u32 := rfl
    have l1 : u32.conv 0xcafed00d = 0xcafed00d := rfl
    have l2 : u32.conv 0xdeadbeef = 0xdeadbeef := rfl
    simp [Deducer.eval, Shown.tagged, envOf, Env.set, Field.id, switchIdx, labelMatches, e, l1, l2, hc]
    by_cases h1 : numeral cfg.wire t = 3405697037
    · have : ((numeral cfg.wire t : Nat) : Int) = 3405697037 := by omega
      simp [h1, eq_comm]
    · have n1 : ¬ ((numeral cfg.wire t : Nat) : Int) = 3405697037 := by omega
      by_cases h2 : numeral cfg.wire t = 3735928559
      · simp [h2, eq_comm]
      · have n2 : ¬ ((numeral cfg.wire t : Nat) : Int) = 3735928559 := by omega
        simp [h1, h2, n1, n2]
  constructor
  · rintro ⟨⟨hf, -, hs⟩, rfl⟩
    match vs, hf with
    | [v1, .var i v], hf =>
      simp only [Shown.tagged, FitsFields, FitsField, fits_unsigned, and_true] at hf
      obtain ⟨⟨t, ht, rfl⟩, hf⟩ := hf
      have hi := (hsw t _ i ht).1 hs.2.1.1
      have hn : ∃ n : List Byte, n.length = 4 ∧ v = .seq [.int (numeral cfg.wire n)] := by
        rcases hi with ⟨-, rfl⟩ | ⟨-, rfl⟩ <;> exact (fits_nested cfg _ v).1 hf
      obtain ⟨n, hn, rfl⟩ := hn
      refine ⟨t, n, i, ht, hn, hi, ?_, rfl⟩
      rcases hi with ⟨-, rfl⟩ | ⟨-, rfl⟩ <;>
      simp only [Shown.tagged, wire, wireFields, wireField, wireAlts, wireKind.eq_5, wire_unsigned _ t 4 ht,
        wire_unsigned _ n 4 hn, List.append_nil]
  · rintro ⟨t, n, i, ht, hn, hi, rfl, rfl⟩
    refine ⟨⟨?_, ?_, ?_⟩, ?_⟩
    · refine ⟨(fits_unsigned cfg 4 _).2 ⟨t, ht, rfl⟩, ?_, trivial⟩
      rcases hi with ⟨-, rfl⟩ | ⟨-, rfl⟩ <;> exact (fits_nested cfg _ _).2 ⟨n, hn, rfl⟩
    · rcases hi with ⟨-, rfl⟩ | ⟨-, rfl⟩ <;>
      simp [Shown.tagged, OkFields, OkField, OkAlts, OkKind, holds_none]
    · refine ⟨by simp [ShapedField, shaped_num], ⟨(hsw t _ i ht).2 hi, ?_⟩, trivial⟩
      rcases hi with ⟨-, rfl⟩ | ⟨-, rfl⟩ <;> simp [ShapedAlts, ShapedKind, ShapedFields, ShapedField]
    · rcases hi with ⟨-, rfl⟩ | ⟨-, rfl⟩ <;>
      simp only [Shown.tagged, wire, wireFields, wireField, wireAlts, wireKind.eq_5, wire_unsigned _ t 4 ht,
        wire_unsigned _ n 4 hn, List.append_nil]

example : (structCast be64 Shown.tagged).run [0xde, 0xad, 0xbe, 0xef, 0, 0, 1, 2] =
    (.done (.ok [.int 0xdeadbeef, .var 1 (.seq [.int 258])]), []) :=
  (C112_tagged be64 _ _ _).2 ⟨[0xde, 0xad, 0xbe, 0xef], [0, 0, 1, 2], 1, rfl, rfl, .inr ⟨rfl, rfl⟩, rfl, rfl⟩

example : (structCast be64 Shown.imageTile).run [0, 2, 0, 1, 0, 7, 1, 0, 5] =
    (.done (.ok [.int 2, .int 1, .seq [.int 7, .int 256]]), [5]) :=
  (C112_tile be64 ⟨.inr rfl, rfl⟩ _ _ _).2 ⟨[0, 2], [0, 1], [(0, 7), (1, 0)], rfl, rfl, rfl, by decide, rfl, rfl⟩

example : (structCast be64 Shown.extentRecord).run [0, 0, 0, 5, 0xff, 0xff, 0xff, 0xff] =
    (.done (.ok [.int 5, .var 1 (.int (-1))]), []) :=
  (C112_extent be64 _ _ _).2 ⟨[0, 0, 0, 5], [0xff, 0xff, 0xff, 0xff], rfl, rfl, rfl, rfl⟩

example : (structCast be64 Shown.telemetryFrame).run [0xab, 0xcd, 0, 7, 2, 0, 0, 0, 1, 1, 2] =
    (.done (.ok [held [0xab, 0xcd], .int 7, .int 2, .int 1, .seq [.int 258]]), []) :=
  (C112_telemetry be64 ⟨.inr rfl, rfl⟩ _ _ _).2
    ⟨[0, 7], 2, [0, 0, 0, 1], [(1, 2)], rfl, .inr rfl, rfl, rfl, by decide, rfl, rfl⟩

/-! ### Where a schema in /repo is not faithful -/

/-- The schema of /repo/test/shipped_header/roundtrip.cpp 22-41, the first field of which is
`magic_string<"magic", "S2S">`. -/
def Shown.shipped : List Field :=
  [.plain "magic" (.fstr 3) (.strCmp true [83, 50, 83, 0]), Shown.basic "count" u32 4, Shown.vec "data" u16 "count",
   .plain "pair" (.fbuf (.scalar u16) 2) .none, .plain "nested" (.record [Shown.basic "x" u16 2]) .none,
   Shown.basic "tag" u32 4,
   .union "body" (.matchField "tag" u32 [(u32, 0xcafed00d), (u32, 0xdeadbeef)])
     [.mk (.num u32 4) .none, .mk (.record [Shown.basic "x" u16 2]) .none] .none]

/-- C112 fails for it: a stranger's four bytes without a zero make the read undefined. -/
theorem C112_fails_shipped (cfg : Cfg) (a b c d : Byte) (h : a ≠ 0 ∧ b ≠ 0 ∧ c ≠ 0 ∧ d ≠ 0) (rest : List Byte) :
    (structCast cfg Shown.shipped).run (a :: b :: c :: d :: rest) = (.stuck .unterminated, rest) := by
  have hu : (Constraint.strCmp true [83, 50, 83, 0]).check (held [a, b, c, d]) = .error .unterminated :=
    C62_unterminated true [a.toNat, b.toNat, c.toNat, d.toNat] _ (by
      have : ∀ x : Byte, x ≠ 0 → (0 : Int) ≠ x.toNat := by
        intro x hx h0
        exact hx (UInt8.toNat_inj.mp (by simpa using h0.symm))
      simp [this a h.1, this b h.2.1, this c h.2.2.1, this d h.2.2.2])
  simp only [held, List.map_cons, List.map_nil] at hu
  simp only [structCast, Shown.shipped]
  generalize dfltEnv _ = env
  generalize List.cons (Shown.basic "count" u32 4) _ = fs
  simp only [readFields, readField, readKind, readFixedStr, readNativeImpl, Field.constraint]
  simp [Rd.map, RdE.andThen, RdE.ok, RdE.tag, RdE.mapErr, Rd.bind, Rd.run, Rd.runOn, listIn, RdE.checked, RdE.lift, hu]

/-- The function `pixel_count` of /repo/docs/schema/computed-values.md 53, as the field of
`image_tile` names it. -/
def pixelCount : Calc := ⟨["width", "height"], fun | [.int w, .int h] => w * h | _ => 0⟩

/-- C112 fails for `image_tile` as it is in C++: four bytes of a stranger make the read call
`pixel_count` with two numbers whose product no `int` holds, though `unsigned short` operands are
multiplied as `int`s. -/
theorem C112_fails_overflow :
    (∃ (a : Int) (t : List Ev), (actCast be64 Shown.imageTile).logOn (tally faithful) ([0xff, 0xff, 0xff, 0xff], [], 0) =
      [.byte 0xff, .byte 0xff, .byte 0xff, .byte 0xff, .answer (.calc pixelCount [.int 65535, .int 65535]) a] ++ t) ∧
    u16.promote = i32 ∧ ¬ i32.InRange (65535 * 65535) := by
  refine ⟨⟨_, _, rfl⟩, rfl, by decide⟩

end S2S.Props
