import Verif.Spec.Numbers
import Verif.Props.Checks
import Verif.Props.Reading
/-
C33, C34, C60-C62: comparison constraints and declared widths.
-/
namespace S2S.Props
open Spec Demo

/-! ## C34, C60 -/

theorem holds_iff (op : CmpOp) (x k : Int) : op.holds x k = true ↔ Compares op x k := by
  cases op <;> simp only [CmpOp.holds, Compares, decide_eq_true_eq, beq_iff_eq, bne_iff_ne,
    ne_eq] <;> omega

/-- The conversion has at most one outcome. -/
theorem passedAs_unique {t : ScalarTy} {x y z : Int} (h1 : PassedAs t x y) (h2 : PassedAs t x z) :
    y = z := by
  obtain ⟨hy, h1⟩ := h1
  obtain ⟨hz, h2⟩ := h2
  cases t with
  | bool =>
    simp only [ScalarTy.InRange] at hy hz
    simp only at h1 h2
    by_cases hx : x = 0
    · rw [h1.2 hx, h2.2 hx]
    · have := mt h1.1 hx
      have := mt h2.1 hx
      omega
  | int b s =>
    simp only at h1 h2
    have h3 : ((256 ^ b : Nat) : Int) ∣ y - z := by
      have := Int.dvd_sub h2 h1
      rwa [show x - z - (x - y) = y - z by omega] at this
    obtain ⟨q, hq⟩ := h3
    have hpos : (0 : Int) < ((256 ^ b : Nat) : Int) := by
      exact_mod_cast Nat.pow_pos (n := b) (by decide : 0 < 256)
    have hy' : -((256 ^ b : Nat) : Int) < y - z ∧ y - z < ((256 ^ b : Nat) : Int) := by
      cases s <;> simp only [ScalarTy.InRange] at hy hz <;> omega
    clear hy hz h1 h2
    generalize ((256 ^ b : Nat) : Int) = M at *
    have hq0 : q = 0 := by
      rcases Int.lt_trichotomy q 0 with hq' | hq' | hq'
      · exfalso
        have : M * q ≤ M * (-1) := Int.mul_le_mul_of_nonneg_left (by omega) (by omega)
        omega
      · exact hq'
      · exfalso
        have : M * 1 ≤ M * q := Int.mul_le_mul_of_nonneg_left (by omega) (by omega)
        omega
    subst hq0
    omega

theorem passedAs_conv (t : ScalarTy) (x : Int) : PassedAs t x (t.conv x) := by
  refine ⟨t.conv_inRange x, ?_⟩
  cases t with
  | bool => simp only [ScalarTy.conv]; split <;> simp_all
  | int b s =>
    simp only
    have hpos : (0 : Int) < ((256 ^ b : Nat) : Int) := by
      exact_mod_cast Nat.pow_pos (n := b) (by decide : 0 < 256)
    have hr : ((residue b x : Nat) : Int) = x % ((256 ^ b : Nat) : Int) := by
      unfold residue
      exact Int.toNat_of_nonneg (Int.emod_nonneg _ (by omega))
    have hd : ((256 ^ b : Nat) : Int) ∣ x - (residue b x : Nat) := by
      rw [hr]; exact Int.dvd_self_sub_emod
    cases s
    · exact hd
    · simp only [ScalarTy.conv]
      split
      · exact hd
      · have := Int.dvd_add hd (Int.dvd_refl _)
        rwa [show ∀ a c : Int, x - a + c = x - (a - c) by intros; omega] at this

/-- C60. A comparison never goes wrong on an integer: it compares the field's value,
passed as a value of the operand's type, with the operand. -/
theorem C60_compare (op : CmpOp) (t : ScalarTy) (k x y : Int) (hy : PassedAs t x y) :
    (Compares op y k → (Constraint.cmp op t k).check (.int x) = .ok true) ∧
    (¬ Compares op y k → (Constraint.cmp op t k).check (.int x) = .ok false) := by
  rw [passedAs_unique hy (passedAs_conv t x)]
  simp only [Constraint.check]
  refine ⟨fun h => by rw [(holds_iff _ _ _).2 h], fun h => ?_⟩
  rw [Bool.eq_false_iff.2 (mt (holds_iff _ _ _).1 h)]

/-- C60 for `any_of`. -/
theorem C60_any_of (t : ScalarTy) (ks : List Int) (x y : Int) (hy : PassedAs t x y) :
    (y ∈ ks → (Constraint.anyOf t ks).check (.int x) = .ok true) ∧
    (y ∉ ks → (Constraint.anyOf t ks).check (.int x) = .ok false) := by
  rw [passedAs_unique hy (passedAs_conv t x)]
  simp only [Constraint.check]
  have h : (ks.any fun k => t.conv x == k) = true ↔ t.conv x ∈ ks := by
    rw [List.any_eq_true]
    refine ⟨fun ⟨a, ha, hb⟩ => by rwa [eq_of_beq hb], fun h => ⟨_, h, by simp⟩⟩
  refine ⟨fun h' => by rw [h.2 h'], fun h' => ?_⟩
  rw [Bool.eq_false_iff.2 (mt h.1 h')]

/-- Every integer is passed as some value. -/
theorem C60_passed (t : ScalarTy) (x : Int) : ∃ y, PassedAs t x y ∧ ∀ z, PassedAs t x z → z = y :=
  ⟨_, passedAs_conv t x, fun _ h => passedAs_unique h (passedAs_conv t x)⟩

example : ∃ y, PassedAs u8 259 y ∧ y = 3 := by
  obtain ⟨y, h, h'⟩ := C60_passed u8 259
  exact ⟨y, h, (h' 3 ⟨by decide, by decide⟩).symm⟩

theorem passedAs_self {t : ScalarTy} {x : Int} (h : t.InRange x) : PassedAs t x x := by
  have := passedAs_conv t x
  rwa [ScalarTy.conv_of_inRange t x h] at this

/-- C34 where it holds: for field values the operand's type has, a comparison is the
mathematical one. Missing: field values the operand's type does not have; there the
statement is false. -/
theorem C34_compare_partial (op : CmpOp) (t : ScalarTy) (k x : Int) (hx : t.InRange x) :
    (Compares op x k → (Constraint.cmp op t k).check (.int x) = .ok true) ∧
    (¬ Compares op x k → (Constraint.cmp op t k).check (.int x) = .ok false) :=
  C60_compare op t k x x (passedAs_self hx)

/-- C34 for `any_of`, for field values the operand's type has. -/
theorem C34_any_of_partial (t : ScalarTy) (ks : List Int) (x : Int) (hx : t.InRange x) :
    (x ∈ ks → (Constraint.anyOf t ks).check (.int x) = .ok true) ∧
    (x ∉ ks → (Constraint.anyOf t ks).check (.int x) = .ok false) :=
  C60_any_of t ks x x (passedAs_self hx)

theorem okFields_mem {fs : List Field} {vs : List Val} (h : OkFields fs vs) {f : Field} {v : Val}
    (hm : (f, v) ∈ fs.zip vs) : OkField f v := by
  induction fs generalizing vs with
  | nil => simp at hm
  | cons g fs ih =>
    cases vs with
    | nil => simp at hm
    | cons w vs =>
      rw [OkFields] at h
      rw [List.zip_cons_cons, List.mem_cons] at hm
      rcases hm with hm | hm
      · cases hm; exact h.1
      · exact ih h.2 hm

/-- C34 in a cast: whatever stream a struct was read from, its compared fields compare as
declared. -/
theorem C34_read_partial (cfg : Cfg) (fs : List Field) (hwf : WellFormed fs) (S : InStream)
    (s s' : S.State) (vs : List Val)
    (h : (structCast cfg fs).runOn S s = (.done (.ok vs), s')) (id : String) (k : Kind)
    (op : CmpOp) (t : ScalarTy) (c x : Int)
    (hm : (Field.plain id k (.cmp op t c), Val.int x) ∈ fs.zip vs) (hx : t.InRange x) :
    Compares op x c := by
  have h1 := okFields_mem (C07_constraints_hold cfg fs hwf S s s' vs h) hm
  rw [OkField] at h1
  by_cases hc : Compares op x c
  · exact hc
  · have := (C34_compare_partial op t c x hx).2 hc
    rw [Holds, this] at h1
    simp at h1

example : (Constraint.cmp .le u16 300).check (.int 300) = .ok true :=
  (C34_compare_partial .le u16 300 300 (by decide)).1 (by decide)
example : (Constraint.cmp .lt u16 300).check (.int 300) = .ok false :=
  (C34_compare_partial .lt u16 300 300 (by decide)).2 (by decide)
example : (Constraint.anyOf i8 [-3, 5]).check (.int (-3)) = .ok true :=
  (C34_any_of_partial i8 [-3, 5] (-3) (by decide)).1 (by decide)
/-- The magic number of the demo packet, on a stream. -/
example : Compares .eq 0x1234 0x1234 :=
  C34_read_partial be64 packet (by decide) listIn packetBytes [] packetParsed (by rfl) "magic" _ _
    i32 0x1234 0x1234 (by simp only [packet, packetParsed, List.zip_cons_cons]; exact .head _)
    (by decide)

/-- C34 fails: `gte{5u}` on an `int` field accepts -1, `lt{5u}` refuses it. -/
theorem C34_fails_sign : i32.InRange (-1) ∧ ¬ Compares .ge (-1) 5 ∧
    (Constraint.cmp .ge u32 5).check (.int (-1)) = .ok true ∧ Compares .lt (-1) 5 ∧
    (Constraint.cmp .lt u32 5).check (.int (-1)) = .ok false :=
  ⟨by decide, by decide, by rfl, by decide, by rfl⟩

/-- C34 fails: `eq{(unsigned char)44}` on an `unsigned short` field accepts 300, and a
whole cast accepts it. -/
theorem C34_fails_narrow : u16.InRange 300 ∧ ¬ Compares .eq 300 44 ∧
    (Constraint.cmp .eq u8 44).check (.int 300) = .ok true ∧
    (structCast le64 [.plain "x" (.num u16 2) (.cmp .eq u8 44)]).run [44, 1] =
      (.done (.ok [.int 300]), []) :=
  ⟨by decide, by decide, by rfl, by rfl⟩

/-- C34 fails for `any_of` in the same way. -/
theorem C34_fails_any_of : u16.InRange 257 ∧ (257 : Int) ∉ [(1 : Int), 2] ∧
    (Constraint.anyOf u8 [1, 2]).check (.int 257) = .ok true :=
  ⟨by decide, by decide, by rfl⟩

example : (Constraint.cmp .ge u32 5).check (.int (-1)) = .ok true :=
  (C60_compare .ge u32 5 (-1) 4294967295 ⟨by decide, by decide⟩).1 (by decide)
example : (Constraint.anyOf u8 [1, 2]).check (.int 259) = .ok false :=
  (C60_any_of u8 [1, 2] 259 3 ⟨by decide, by decide⟩).2 (by decide)

/-! ## C62 -/

theorem cstr?_append (a r : List Int) (h : 0 ∉ a) : cstr? (a ++ 0 :: r) = some a := by
  induction a with
  | nil => simp [cstr?]
  | cons c a ih =>
    rw [List.mem_cons, not_or] at h
    rw [List.cons_append, cstr?, if_neg (Ne.symm h.1), ih h.2]
    rfl

theorem cstr?_none (a : List Int) (h : 0 ∉ a) : cstr? a = none := by
  induction a with
  | nil => rfl
  | cons c a ih =>
    rw [List.mem_cons, not_or] at h
    rw [cstr?, if_neg (Ne.symm h.1), ih h.2]
    rfl

theorem chars?_map (cs : List Int) : Val.chars? (cs.map .int) = some cs := by
  induction cs with
  | nil => rfl
  | cons c cs ih => rw [List.map_cons, Val.chars?, ih]; rfl

/-- C62, strings: `eq{"..."}` holds exactly if value and operand are equal up to their
first NUL, `neq{"..."}` exactly if they are not; what follows the NUL plays no part. -/
theorem C62_string (a b r r' : List Int) (ha : 0 ∉ a) (hb : 0 ∉ b) :
    (Constraint.strCmp true (b ++ 0 :: r')).check (.seq ((a ++ 0 :: r).map .int)) =
      .ok (decide (a = b)) ∧
    (Constraint.strCmp false (b ++ 0 :: r')).check (.seq ((a ++ 0 :: r).map .int)) =
      .ok (decide (a ≠ b)) := by
  simp only [Constraint.check, chars?_map, cstr?_append a r ha, cstr?_append b r' hb]
  by_cases h : a = b <;> simp [h]

/-- C62, strings without a terminator: the comparison leaves the object. -/
theorem C62_unterminated (e : Bool) (a s : List Int) (ha : 0 ∉ a) :
    (Constraint.strCmp e s).check (.seq (a.map .int)) = .error .unterminated := by
  simp only [Constraint.check, chars?_map, cstr?_none a ha]

/-- C62, arrays: `eq{std::array{..}}` holds exactly if the arrays are equal, `neq` exactly
if they are not. -/
theorem C62_array (v w : Val) :
    (Constraint.arrCmp true v).check w = .ok (decide (w = v)) ∧
    (Constraint.arrCmp false v).check w = .ok (decide (w ≠ v)) := by
  simp only [Constraint.check]
  by_cases h : w = v
  · rw [(Val.eqb_iff w v).2 h]; simp [h]
  · rw [Bool.eq_false_iff.2 (mt (Val.eqb_iff w v).1 h)]; simp [h]

example : (Constraint.strCmp false [83, 50, 83, 0]).check (.seq ([83, 50, 0, 7].map .int)) = .ok true :=
  (C62_string [83, 50] [83, 50, 83] [7] [] (by decide) (by decide)).2
example : (Constraint.strCmp true [83, 50, 83, 0]).check (.seq ([83, 50, 83, 83].map .int)) =
    .error .unterminated := C62_unterminated true [83, 50, 83, 83] _ (by decide)
example : (Constraint.arrCmp false (.seq [.int 1, .int 2])).check (.seq [.int 1, .int 3]) = .ok true :=
  (C62_array _ _).2

/-! ## C33, C61 -/

/-- `basic_field<id, T, w_B>` on its own. -/
def single (id : String) (t : ScalarTy) (w : Nat) : List Field := [.plain id (.num t w) .none]

theorem pow256 (n : Nat) : 0 < 256 ^ n := Nat.pow_pos (by decide)

theorem low_digit (x I D : Int) (hI : 0 < I) : (x % (I * (256 * D))) / I % 256 = x / I % 256 := by
  have h : x % (I * (256 * D)) = x + I * (256 * -(D * (x / (I * (256 * D))))) := by
    have h1 := Int.emod_def x (I * (256 * D))
    have h2 : I * (256 * D) * (x / (I * (256 * D))) = I * (256 * (D * (x / (I * (256 * D))))) := by
      rw [Int.mul_assoc, Int.mul_assoc]
    rw [Int.mul_neg, Int.mul_neg]
    omega
  rw [h, Int.add_mul_ediv_left _ _ (by omega), Int.add_mul_emod_self_left]

theorem high_digit (x M D : Int) (hM : 0 < M) : x / M * M / (M * D) = x / (M * D) := by
  rw [← Int.ediv_ediv_of_nonneg (by omega), ← Int.ediv_ediv_of_nonneg (by omega),
    Int.mul_ediv_cancel _ (by omega)]

theorem pos256 (n : Nat) : (0 : Int) < ((256 ^ n : Nat) : Int) :=
  Int.natCast_pos.2 (Nat.pow_pos (by decide))

theorem byteAt_low (x : Int) (w i : Nat) (h : i < w) :
    byteAt (x % ((256 ^ w : Nat) : Int)) i = byteAt x i := by
  unfold byteAt
  obtain ⟨d, rfl⟩ : ∃ d, w = i + 1 + d := ⟨w - (i + 1), by omega⟩
  rw [show ((256 ^ (i + 1 + d) : Nat) : Int) =
      ((256 ^ i : Nat) : Int) * (256 * ((256 ^ d : Nat) : Int)) by
    rw [Nat.pow_add, Nat.pow_succ, Int.natCast_mul, Int.natCast_mul, Int.mul_assoc]; rfl,
    low_digit _ _ _ (pos256 i)]

theorem byteAt_high (x : Int) (m i : Nat) (h : m ≤ i) :
    byteAt (x / ((256 ^ m : Nat) : Int) * ((256 ^ m : Nat) : Int)) i = byteAt x i := by
  unfold byteAt
  obtain ⟨d, rfl⟩ : ∃ d, i = m + d := ⟨i - m, by omega⟩
  rw [Nat.pow_add, Int.natCast_mul, high_digit _ _ _ (pos256 m)]

theorem run_single_write (cfg : Cfg) (id : String) (t : ScalarTy) (w : Nat) (x : Int)
    (hw : w ≤ t.size) :
    (streamCast cfg (single id t w) [.int x]).run =
      (.done (.ok ()), wireScalar cfg.wire t.size w x) := by
  refine (Wr.run_eq _).trans (?_ : WrE.Emits _ _ _)
  rw [streamCast, single, writeFields]
  refine (WrE.emits_andThen _ _ _ _).2 ⟨(), _, [], (List.append_nil _).symm, ?_, ?_⟩
  · refine emits_writeStep.2 ⟨?_, fun _ _ => rfl⟩
    rw [writeField, writeKind]
    refine emits_writeFixed.2 (.inr ⟨rfl, ?_⟩)
    exact (emits_writeNum _ _ _ _ _).2 ⟨hw, rfl⟩
  · rw [writeFields]
    exact (WrE.emits_ok _ _ _).2 ⟨rfl, rfl⟩

theorem run_single_read (cfg : Cfg) (id : String) (t : ScalarTy) (w : Nat) (y : Int)
    (hy : ScalarFits cfg.wire t w y) (rest : List Byte) :
    (structCast cfg (single id t w)).run (wireScalar cfg.wire t.size w y ++ rest) =
      (.done (.ok [.int y]), rest) := by
  rw [read_iff]
  · simp [single, Valid, FitsFields, FitsField, FitsKind, hy, OkFields, OkField, OkKind, Holds,
      Constraint.check, ShapedFields, ShapedField, ShapedKind, wire, wireFields, wireField,
      wireKind]
  · simp [WellFormed, single, saneFields, saneField, saneKind, uniqueFields, uniqueField,
      uniqueKind, earlierFields, fieldDeps, kindDeps, earlierField, earlierKind]

/-- What is left of a value that goes over the wire in `w` of its `b` bytes: little
endian the low bytes, big endian the high ones, zeros elsewhere. -/
def narrowed (o : Endian) (b w : Nat) (x : Int) : Int :=
  match o with
  | .little => x % ((256 ^ w : Nat) : Int)
  | .big => x / ((256 ^ (b - w) : Nat) : Int) * ((256 ^ (b - w) : Nat) : Int)

theorem pow256_lt {w b : Nat} (h : w < b) : 256 * 256 ^ w ≤ 256 ^ b := by
  calc 256 * 256 ^ w = 256 ^ (w + 1) := by rw [Nat.pow_succ, Nat.mul_comm]
    _ ≤ 256 ^ b := Nat.pow_le_pow_right (by decide) h

theorem narrowed_fits (o : Endian) (b w : Nat) (sg : Bool) (x : Int) (h0 : 0 < w) (hw : w < b)
    (hx : (ScalarTy.int b sg).InRange x) : ScalarFits o (.int b sg) w (narrowed o b w x) := by
  cases o with
  | little =>
    have h1 : (0 : Int) ≤ x % ((256 ^ w : Nat) : Int) := Int.emod_nonneg _ (Int.ne_of_gt (pos256 w))
    have h2 : x % ((256 ^ w : Nat) : Int) < ((256 ^ w : Nat) : Int) := Int.emod_lt_of_pos _ (pos256 w)
    have h3 : (256 : Int) * ((256 ^ w : Nat) : Int) ≤ ((256 ^ b : Nat) : Int) := by
      have := pow256_lt hw; omega
    refine ⟨?_, .inr ⟨hw, h1, h2⟩⟩
    simp only [narrowed]
    cases sg <;> simp only [ScalarTy.InRange] <;> omega
  | big =>
    refine ⟨?_, .inr ⟨hw, Int.dvd_mul_left _ _⟩⟩
    simp only [narrowed]
    generalize hm : b - w = m
    obtain ⟨d, rfl⟩ : ∃ d, b = m + 1 + d := ⟨b - (m + 1), by omega⟩
    have e : ((256 ^ (m + 1 + d) : Nat) : Int) =
        ((256 ^ m : Nat) : Int) * (256 * ((256 ^ d : Nat) : Int)) := by
      rw [Nat.pow_add, Nat.pow_succ, Int.natCast_mul, Int.natCast_mul, Int.mul_assoc]; rfl
    have hM := pos256 m
    have h1 := Int.ediv_mul_le x (Int.ne_of_gt hM)
    cases sg
    · simp only [ScalarTy.InRange] at hx ⊢
      have := Int.ediv_nonneg hx.1 (Int.le_of_lt hM)
      have := Int.mul_nonneg this (Int.le_of_lt hM)
      omega
    · simp only [ScalarTy.InRange] at hx ⊢
      refine ⟨?_, by omega⟩
      rw [e] at hx ⊢
      generalize ((256 ^ m : Nat) : Int) = M at *
      generalize ((256 ^ d : Nat) : Int) = D at *
      have h2 : -(128 * D) ≤ x / M := by
        rw [Int.le_ediv_iff_mul_le hM]
        have : M * (256 * D) = 2 * (128 * D * M) := by
          rw [Int.mul_comm M, ← Int.mul_assoc 2, ← Int.mul_assoc 2]; rfl
        rw [Int.neg_mul]
        omega
      have h3 := Int.mul_le_mul_of_nonneg_right h2 (Int.le_of_lt hM)
      have : M * (256 * D) = 2 * (128 * D * M) := by
        rw [Int.mul_comm M, ← Int.mul_assoc 2, ← Int.mul_assoc 2]; rfl
      rw [Int.neg_mul] at h3
      omega

theorem narrowed_wire (o : Endian) (b w : Nat) (x : Int) (hw : w < b) :
    wireScalar o b w (narrowed o b w x) = wireScalar o b w x := by
  cases o <;> simp only [wireScalar, narrowed] <;> refine List.map_congr_left fun i hi => ?_ <;>
    rw [List.mem_range] at hi
  · exact byteAt_low x w i hi
  · exact byteAt_high x _ _ (by omega)

/-- C61. A field of an integer type declared with fewer bytes than its type emits exactly
that many bytes; reading them back, in the same byte order, on whatever host, gives the
value's low bytes (little endian) or high bytes (big endian), the others zero. -/
theorem C61_narrow (cfg cfg' : Cfg) (hcfg : cfg'.wire = cfg.wire) (id : String) (b w : Nat)
    (sg : Bool) (h0 : 0 < w) (hw : w < b) (x : Int) (hx : (ScalarTy.int b sg).InRange x)
    (rest : List Byte) :
    ∃ p : List Byte, p.length = w ∧
      (streamCast cfg (single id (.int b sg) w) [.int x]).run = (.done (.ok ()), p) ∧
      (structCast cfg' (single id (.int b sg) w)).run (p ++ rest) =
        (.done (.ok [.int (match cfg.wire with
          | .little => x % ((256 ^ w : Nat) : Int)
          | .big => x / ((256 ^ (b - w) : Nat) : Int) * ((256 ^ (b - w) : Nat) : Int))]), rest) := by
  refine ⟨wireScalar cfg.wire b w x, by simp, run_single_write cfg id _ w x (Nat.le_of_lt hw), ?_⟩
  have := run_single_read cfg' id (.int b sg) w (narrowed cfg.wire b w x)
    (by rw [hcfg]; exact narrowed_fits _ b w sg x h0 hw hx) rest
  rw [hcfg, show (ScalarTy.int b sg).size = b from rfl, narrowed_wire _ b w x hw] at this
  exact this

/-- C33 where it holds: little endian, values that are not negative. Missing: big endian
and negative values; there the statement is false. -/
theorem C33_little_partial (cfg : Cfg) (ho : cfg.wire = .little) (id : String) (b w : Nat)
    (sg : Bool) (h0 : 0 < w) (hw : w < b) (x : Int) (hx0 : 0 ≤ x) (hx : x < (256 ^ w : Nat))
    (rest : List Byte) :
    ∃ p : List Byte, p.length = w ∧
      (streamCast cfg (single id (.int b sg) w) [.int x]).run = (.done (.ok ()), p) ∧
      (structCast cfg (single id (.int b sg) w)).run (p ++ rest) = (.done (.ok [.int x]), rest) := by
  have hr : (ScalarTy.int b sg).InRange x := by
    have := pow256_lt hw
    cases sg <;> simp only [ScalarTy.InRange] <;> omega
  obtain ⟨p, h1, h2, h3⟩ := C61_narrow cfg cfg rfl id b w sg h0 hw x hr rest
  refine ⟨p, h1, h2, ?_⟩
  rw [h3, ho]
  simp only
  rw [Int.emod_eq_of_lt hx0 hx]

/-- C33, the number of bytes, wherever in a schema the field stands: a number that is
neither a slot nor a constant puts its declared width on the wire. -/
theorem C33_width_partial (cfg : Cfg) (pre post : List Field) (id : String) (t : ScalarTy) (w : Nat)
    (c : Constraint) (vpre vpost : List Val) (x : Int) (hl : vpre.length = pre.length)
    (hx : t.InRange x) (hslot : isSlot (pre ++ .plain id (.num t w) c :: post) id = false)
    (hc : typedConst (.num t w) c = none) (p : List Byte)
    (h : (streamCast cfg (pre ++ .plain id (.num t w) c :: post) (vpre ++ .int x :: vpost)).run =
      (.done (.ok ()), p)) :
    ∃ q r s : List Byte, p = q ++ (r ++ s) ∧ r.length = w ∧
      Puts cfg (pre ++ .plain id (.num t w) c :: post) (vpre ++ .int x :: vpost) pre vpre q ∧
      Puts cfg (pre ++ .plain id (.num t w) c :: post) (vpre ++ .int x :: vpost) post vpost s := by
  obtain ⟨q, s, rfl, h1, h2⟩ := C35_siblings_partial cfg pre post id (.num t w) c vpre vpost (.int x)
    hl rfl (by rw [TypedKind]; exact hx) hslot hc p h
  exact ⟨q, _, s, rfl, by rw [wireKind, wireScalar_length], h1, h2⟩

/-- Three bytes for -257 between a magic number and a crc. -/
example : ∃ q r s : List Byte, [0x12, 0x34, 0xff, 0xff, 0xfe, 9] = q ++ (r ++ s) ∧ r.length = 3 ∧
    Puts be64 [.plain "m" (.num u16 2) (.cmp .eq i32 0x1234), .plain "x" (.num i32 3) .none, .plain "c" (.num u8 1) .none]
      [.int 0, .int (-257), .int 9] [.plain "m" (.num u16 2) (.cmp .eq i32 0x1234)] [.int 0] q ∧
    Puts be64 [.plain "m" (.num u16 2) (.cmp .eq i32 0x1234), .plain "x" (.num i32 3) .none, .plain "c" (.num u8 1) .none]
      [.int 0, .int (-257), .int 9] [.plain "c" (.num u8 1) .none] [.int 9] s :=
  C33_width_partial be64 [.plain "m" (.num u16 2) (.cmp .eq i32 0x1234)] [.plain "c" (.num u8 1) .none] "x" i32 3 .none
    [.int 0] [.int 9] (-257) rfl (by decide) (by decide +kernel) rfl _ (by rfl)

/-- C33 fails big endian: 5 in one byte of a `u32` is sent as its high byte. -/
theorem C33_fails_big : (5 : Int) < (256 ^ 1 : Nat) ∧
    (streamCast be64 (single "x" u32 1) [.int 5]).run = (.done (.ok ()), [0]) ∧
    (structCast be64 (single "x" u32 1)).run [0] = (.done (.ok [.int 0]), []) :=
  ⟨by decide, by rfl, by rfl⟩

/-- C33 fails for negative values: -1 in one byte of an `i32` comes back as 255. -/
theorem C33_fails_negative : i8.InRange (-1) ∧
    (streamCast le64 (single "x" i32 1) [.int (-1)]).run = (.done (.ok ()), [255]) ∧
    (structCast le64 (single "x" i32 1)).run [255] = (.done (.ok [.int 255]), []) :=
  ⟨by decide, by rfl, by rfl⟩

example : ∃ p : List Byte, p.length = 3 ∧
    (streamCast le64 (single "x" i32 3) [.int 0xabcdef]).run = (.done (.ok ()), p) ∧
    (structCast le64 (single "x" i32 3)).run (p ++ [9]) = (.done (.ok [.int 0xabcdef]), [9]) :=
  C33_little_partial le64 rfl "x" 4 3 true (by decide) (by decide) _ (by decide) (by decide) [9]
example : (structCast be64 (single "x" i32 3)).run [0xff, 0xff, 0x80] =
    (.done (.ok [.int (-32768)]), []) := by rfl
/-- The high bytes of -32767. -/
example : ∃ p : List Byte, p.length = 3 ∧
    (streamCast be64 (single "x" i32 3) [.int (-32767)]).run = (.done (.ok ()), p) ∧
    (structCast { be64 with host := .big } (single "x" i32 3)).run (p ++ []) =
      (.done (.ok [.int (-32768)]), []) :=
  C61_narrow be64 { be64 with host := .big } rfl "x" 4 3 true (by decide) (by decide) (-32767)
    (by decide) []

end S2S.Props
