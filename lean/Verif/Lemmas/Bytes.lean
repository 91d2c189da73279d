import Verif.Model.Bytes
import Verif.Spec.Format
/-
Arithmetic of bytes, residues, conversions and byte order.
-/
namespace S2S

@[simp] theorem leBytes_length (n v : Nat) : (leBytes n v).length = n := by
  induction n generalizing v with
  | zero => rfl
  | succ n ih => simp [leBytes, ih]

theorem leNat_lt (bs : List Byte) : leNat bs < 256 ^ bs.length := by
  induction bs with
  | nil => simp [leNat]
  | cons b bs ih =>
    have := b.toNat_lt
    simp only [leNat, List.length_cons, Nat.pow_succ]
    omega

theorem leNat_leBytes (n v : Nat) : leNat (leBytes n v) = v % 256 ^ n := by
  induction n generalizing v with
  | zero => simp [leBytes, leNat, Nat.mod_one]
  | succ n ih =>
    simp only [leBytes, leNat, ih, UInt8.toNat_ofNat']
    have h : 256 ^ (n + 1) = 256 * 256 ^ n := by rw [Nat.pow_succ, Nat.mul_comm]
    rw [h, Nat.mod_mul]

theorem leBytes_leNat (bs : List Byte) : leBytes bs.length (leNat bs) = bs := by
  induction bs with
  | nil => rfl
  | cons b bs ih =>
    have hb := b.toNat_lt
    simp only [List.length_cons, leBytes, leNat]
    have h1 : (b.toNat + 256 * leNat bs) / 256 = leNat bs := by omega
    have h2 : UInt8.ofNat (b.toNat + 256 * leNat bs) = b := by
      apply UInt8.toNat_inj.mp
      rw [UInt8.toNat_ofNat']
      omega
    rw [h1, h2, ih]

theorem leNat_append (as bs : List Byte) :
    leNat (as ++ bs) = leNat as + 256 ^ as.length * leNat bs := by
  induction as with
  | nil => simp [leNat]
  | cons a as ih =>
    simp only [List.cons_append, leNat, ih, List.length_cons, Nat.pow_succ]
    rw [Nat.mul_add, Nat.mul_comm (256 ^ as.length) 256, ← Nat.mul_assoc]
    omega

theorem leNat_replicate (n : Nat) : leNat (List.replicate n 0) = 0 := by
  induction n with
  | zero => rfl
  | succ n ih => simp [List.replicate_succ, leNat, ih]

theorem leBytes_mod (n v : Nat) : leBytes n (v % 256 ^ n) = leBytes n v := by
  rw [← leNat_leBytes]
  conv => lhs; arg 1; rw [← leBytes_length n v]
  exact leBytes_leNat _

theorem leBytes_take (m n v : Nat) (h : m ≤ n) : (leBytes n v).take m = leBytes m v := by
  induction m generalizing n v with
  | zero => simp [leBytes]
  | succ m ih =>
    cases n with
    | zero => omega
    | succ n => simp [leBytes, ih n (v / 256) (by omega)]

theorem leBytes_drop (m n v : Nat) (h : m ≤ n) :
    (leBytes n v).drop m = leBytes (n - m) (v / 256 ^ m) := by
  induction m generalizing n v with
  | zero => simp
  | succ m ih =>
    cases n with
    | zero => omega
    | succ n =>
      simp only [leBytes, List.drop_succ_cons, ih n (v / 256) (by omega)]
      rw [Nat.div_div_eq_div_mul, Nat.pow_succ, Nat.mul_comm 256]
      congr 1
      omega

@[simp] theorem Endian.order_length (e : Endian) (bs : List Byte) :
    (e.order bs).length = bs.length := by
  cases e <;> simp [Endian.order]

@[simp] theorem Endian.order_order (e : Endian) (bs : List Byte) :
    e.order (e.order bs) = bs := by
  cases e <;> simp [Endian.order]

/-! ### residues and conversions -/

theorem pow256_pos (n : Nat) : 0 < 256 ^ n := Nat.pow_pos (by decide)

theorem residue_lt (n : Nat) (x : Int) : residue n x < 256 ^ n := by
  have := pow256_pos n
  unfold residue
  have h1 := Int.emod_lt_of_pos x (b := ((256 ^ n : Nat) : Int)) (by omega)
  have h2 := Int.emod_nonneg x (b := ((256 ^ n : Nat) : Int)) (by omega)
  omega

theorem residue_cast (n : Nat) (x : Int) : (residue n x : Int) = x % (256 ^ n : Nat) := by
  have := pow256_pos n
  have h2 := Int.emod_nonneg x (b := ((256 ^ n : Nat) : Int)) (by omega)
  unfold residue
  omega

theorem residue_ofNat (n v : Nat) : residue n (v : Int) = v % 256 ^ n := by
  have : (residue n v : Int) = ((v % 256 ^ n : Nat) : Int) := by
    rw [residue_cast, Int.natCast_emod]
  omega

theorem residue_of_range (n : Nat) (x : Int) (h0 : 0 ≤ x) (h1 : x < (256 ^ n : Nat)) :
    (residue n x : Int) = x := by
  rw [residue_cast, Int.emod_eq_of_lt h0 h1]

/-- The value determined by a residue, in a type. -/
theorem ScalarTy.conv_inRange (t : ScalarTy) (x : Int) : t.InRange (t.conv x) := by
  cases t with
  | int b s =>
    have h := residue_lt b x
    cases s with
    | false => simp only [ScalarTy.InRange, ScalarTy.conv]; omega
    | true =>
      simp only [ScalarTy.InRange, ScalarTy.conv]
      split <;> omega
  | bool => simp only [ScalarTy.InRange, ScalarTy.conv]; split <;> simp

theorem ScalarTy.conv_of_inRange (t : ScalarTy) (x : Int) (h : t.InRange x) : t.conv x = x := by
  cases t with
  | int b s =>
    have hp := pow256_pos b
    cases s with
    | false =>
      obtain ⟨h0, h1⟩ := h
      simp only [ScalarTy.conv]
      exact residue_of_range b x h0 h1
    | true =>
      obtain ⟨h0, h1⟩ := h
      simp only [ScalarTy.conv]
      have hr := residue_cast b x
      by_cases hx : 0 ≤ x
      · rw [Int.emod_eq_of_lt hx (by omega)] at hr
        split <;> omega
      · have : x % ((256 ^ b : Nat) : Int) = x + (256 ^ b : Nat) := by
          have e : (x + ((256 ^ b : Nat) : Int)) % ((256 ^ b : Nat) : Int) =
              x % ((256 ^ b : Nat) : Int) := Int.add_emod_right ..
          rw [← e]
          exact Int.emod_eq_of_lt (by omega) (by omega)
        rw [this] at hr
        split <;> omega
  | bool => rcases h with rfl | rfl <;> rfl

theorem residue_conv (b : Nat) (s : Bool) (x : Int) :
    residue b ((ScalarTy.int b s).conv x) = residue b x := by
  have hl := residue_lt b x
  have key : residue b (residue b x : Int) = residue b x := by
    rw [residue_ofNat, Nat.mod_eq_of_lt hl]
  cases s with
  | false => simpa only [ScalarTy.conv] using key
  | true =>
    simp only [ScalarTy.conv]
    split
    · exact key
    · have : (residue b ((residue b x : Int) - ((256 ^ b : Nat) : Int)) : Int) = residue b x := by
        rw [residue_cast, Int.sub_emod_right, ← residue_cast, key]
      omega

theorem conv_residue (b : Nat) (s : Bool) (x : Int) :
    (ScalarTy.int b s).conv (residue b x : Int) = (ScalarTy.int b s).conv x := by
  have hl := residue_lt b x
  have key : residue b (residue b x : Int) = residue b x := by
    rw [residue_ofNat, Nat.mod_eq_of_lt hl]
  cases s <;> simp only [ScalarTy.conv, key]

theorem ScalarTy.residue_inj (t : ScalarTy) (x y : Int) (hx : t.InRange x) (hy : t.InRange y)
    (h : residue t.size x = residue t.size y) : x = y := by
  cases t with
  | int b s =>
    rw [← ScalarTy.conv_of_inRange _ x hx, ← ScalarTy.conv_of_inRange _ y hy,
      ← conv_residue b s x, ← conv_residue b s y]
    simp only [ScalarTy.size] at h
    rw [h]
  | bool =>
    rcases hx with rfl | rfl <;> rcases hy with rfl | rfl <;>
      simp_all [residue, ScalarTy.size]

/-! ### `byteAt` -/

open Spec

theorem byteAt_residue (b : Nat) (x : Int) (i : Nat) (h : i < b) :
    byteAt x i = UInt8.ofNat (residue b x / 256 ^ i) := by
  have hp := pow256_pos i
  obtain ⟨d, rfl⟩ : ∃ d, b = i + (d + 1) := ⟨b - i - 1, by omega⟩
  apply UInt8.toNat_inj.mp
  simp only [byteAt, UInt8.toNat_ofNat']
  have h1 : ((residue (i + (d + 1)) x / 256 ^ i % 256 : Nat) : Int) =
      x / ((256 ^ i : Nat) : Int) % 256 := by
    rw [Int.natCast_emod, Int.natCast_ediv, residue_cast]
    have e : ((256 ^ (i + (d + 1)) : Nat) : Int) =
        ((256 ^ i : Nat) : Int) * (256 * ((256 ^ d : Nat) : Int)) := by
      rw [Nat.pow_add, Nat.pow_succ, Int.natCast_mul, Int.natCast_mul,
        Int.mul_comm ((256 ^ d : Nat) : Int)]
      rfl
    rw [e]
    have hx := Int.emod_add_mul_ediv x (((256 ^ i : Nat) : Int) * (256 * ((256 ^ d : Nat) : Int)))
    generalize x / (((256 ^ i : Nat) : Int) * (256 * ((256 ^ d : Nat) : Int))) = q at hx
    generalize x % (((256 ^ i : Nat) : Int) * (256 * ((256 ^ d : Nat) : Int))) = r at hx
    subst hx
    rw [Int.mul_assoc, Int.add_mul_ediv_left _ _ (by omega)]
    rw [show (256 : Int) * ((256 ^ d : Nat) : Int) * q = 256 * (((256 ^ d : Nat) : Int) * q) by
      rw [Int.mul_assoc]]
    show _ % ((256 : Nat) : Int) = _
    simp
  omega

theorem range_map_leBytes (w v : Nat) :
    (List.range w).map (fun i => UInt8.ofNat (v / 256 ^ i)) = leBytes w v := by
  induction w generalizing v with
  | zero => rfl
  | succ w ih =>
    rw [List.range_succ_eq_map, List.map_cons, List.map_map, leBytes, ← ih (v / 256)]
    simp only [Nat.pow_zero, Nat.div_one, List.cons.injEq, true_and]
    apply List.map_congr_left
    intro i _
    simp only [Function.comp, Nat.succ_eq_add_one]
    rw [Nat.div_div_eq_div_mul, Nat.pow_succ, Nat.mul_comm 256]

theorem wireScalar_little (b w : Nat) (x : Int) (h : w ≤ b) :
    wireScalar .little b w x = leBytes w (residue b x) := by
  rw [← range_map_leBytes]
  simp only [wireScalar]
  apply List.map_congr_left
  intro i hi
  rw [List.mem_range] at hi
  exact byteAt_residue b x i (by omega)

theorem wireScalar_big (b w : Nat) (x : Int) (h : w ≤ b) :
    wireScalar .big b w x = ((leBytes b (residue b x)).reverse).take w := by
  rw [← range_map_leBytes, ← List.map_reverse]
  simp only [wireScalar]
  apply List.ext_getElem
  · simp; omega
  · intro i h1 h2
    simp only [List.length_map, List.length_range] at h1
    simp only [List.getElem_map, List.getElem_range, List.getElem_take, List.getElem_reverse,
      List.length_range]
    exact byteAt_residue b x (b - 1 - i) (by omega)

/-- The first `w` bytes of the object representation in the given order. -/
theorem wireScalar_eq (o : Endian) (b w : Nat) (x : Int) (h : w ≤ b) :
    wireScalar o b w x = (o.order (leBytes b (residue b x))).take w := by
  cases o with
  | little => rw [wireScalar_little b w x h, Endian.order, leBytes_take _ _ _ h]
  | big => exact wireScalar_big b w x h

@[simp] theorem wireScalar_length (o : Endian) (b w : Nat) (x : Int) :
    (wireScalar o b w x).length = w := by
  cases o <;> simp [wireScalar]

/-! ### byte order of host and wire -/

/-- `std::byteswap` after reading memory natively is reading it in the other order. -/
theorem ofMem_foreign (host : Endian) (b : Nat) (s : Bool) (mem : List Byte)
    (hlen : mem.length = b) :
    (ScalarTy.int b s).byteswap ((ScalarTy.int b s).conv (leNat (host.order mem))) =
      (ScalarTy.int b s).conv (leNat (host.order mem).reverse) := by
  subst hlen
  simp only [ScalarTy.byteswap, residue_conv]
  have hl := leNat_lt (host.order mem)
  rw [Endian.order_length] at hl
  rw [residue_ofNat, Nat.mod_eq_of_lt hl]
  have h := leBytes_leNat (host.order mem)
  rw [Endian.order_length] at h
  rw [h]

theorem reverse_order (a b : Endian) (h : a ≠ b) (bs : List Byte) :
    (a.order bs).reverse = b.order bs := by
  cases a <;> cases b <;> simp_all [Endian.order]

/-- What a scalar read over `mem` yields: the number in wire order. -/
theorem swapped_value (cfg : Cfg) (b : Nat) (s : Bool) (mem : List Byte)
    (hlen : mem.length = b) :
    (if cfg.foreign then
        (ScalarTy.int b s).byteswap ((ScalarTy.int b s).conv (leNat (cfg.host.order mem)))
      else (ScalarTy.int b s).conv (leNat (cfg.host.order mem))) =
      (ScalarTy.int b s).conv (leNat (cfg.wire.order mem)) := by
  by_cases h : cfg.host = cfg.wire
  · simp [Cfg.foreign, h]
  · simp only [Cfg.foreign, ne_eq, h, not_false_eq_true, decide_true, if_true]
    rw [ofMem_foreign _ _ _ _ hlen, reverse_order _ _ h]

/-- The object representation of a value swapped if foreign is its
representation in wire order. -/
theorem toMem_swapped (cfg : Cfg) (t : ScalarTy) (x : Int) :
    t.toMem cfg.host (if cfg.foreign then t.byteswap x else x) =
      cfg.wire.order (leBytes t.size (residue t.size x)) := by
  by_cases h : cfg.host = cfg.wire
  · simp [Cfg.foreign, h, ScalarTy.toMem]
  · simp only [Cfg.foreign, ne_eq, h, not_false_eq_true, decide_true, if_true, ScalarTy.toMem]
    cases t with
    | int b s =>
      simp only [ScalarTy.byteswap, ScalarTy.size, residue_conv]
      have hl := leNat_lt (leBytes b (residue b x)).reverse
      simp only [List.length_reverse, leBytes_length] at hl
      rw [residue_ofNat, Nat.mod_eq_of_lt hl]
      have h2 := leBytes_leNat (leBytes b (residue b x)).reverse
      simp only [List.length_reverse, leBytes_length] at h2
      rw [h2]
      have := reverse_order cfg.host cfg.wire h (leBytes b (residue b x))
      rw [← this]
      cases cfg.host <;> simp [Endian.order]
    | bool =>
      simp only [ScalarTy.byteswap, ScalarTy.size, leBytes]
      cases cfg.host <;> cases cfg.wire <;> simp [Endian.order]

theorem ScalarTy.toMem_length (host : Endian) (t : ScalarTy) (x : Int) :
    (t.toMem host x).length = t.size := by
  simp [ScalarTy.toMem]

end S2S
