import Verif.Model.Read
import Verif.Lemmas.Bytes
import Verif.Lemmas.Rd
/-
Successful reads of scalars and buffers, characterised by the wire format.
-/
namespace S2S
open Spec

theorem leBytes_zero_iff (n v : Nat) : leBytes n v = List.replicate n 0 ↔ v % 256 ^ n = 0 := by
  constructor
  · intro h
    rw [← leNat_leBytes, h, leNat_replicate]
  · intro h
    rw [← leBytes_mod, h]
    clear h
    induction n with
    | zero => rfl
    | succ n ih => simp only [leBytes, List.replicate_succ, Nat.zero_div, ih]; rfl

/-- The value of memory in some order. -/
theorem value_iff_mem (o : Endian) (b : Nat) (s : Bool) (mem : List Byte) (hlen : mem.length = b)
    (x : Int) :
    x = (ScalarTy.int b s).conv (leNat (o.order mem)) ↔
      (ScalarTy.int b s).InRange x ∧ mem = o.order (leBytes b (residue b x)) := by
  subst hlen
  have hl := leNat_lt (o.order mem)
  rw [Endian.order_length] at hl
  have hb := leBytes_leNat (o.order mem)
  rw [Endian.order_length] at hb
  constructor
  · rintro rfl
    refine ⟨ScalarTy.conv_inRange _ _, ?_⟩
    rw [residue_conv, residue_ofNat, Nat.mod_eq_of_lt hl, hb, Endian.order_order]
  · rintro ⟨hr, hm⟩
    have h1 : o.order mem = leBytes mem.length (residue mem.length x) := by
      conv => lhs; rw [hm]
      rw [Endian.order_order]
    rw [h1, leNat_leBytes, Nat.mod_eq_of_lt (residue_lt _ _), conv_residue,
      ScalarTy.conv_of_inRange _ _ hr]

/-- The bytes beyond a declared width are zero exactly for values that fit it. -/
theorem drop_zero_iff (o : Endian) (b w : Nat) (s : Bool) (x : Int) (hw : w ≤ b)
    (hr : (ScalarTy.int b s).InRange x) :
    (o.order (leBytes b (residue b x))).drop w = List.replicate (b - w) 0 ↔
      (w = b ∨ w < b ∧
        match o with
        | .little => 0 ≤ x ∧ x < (256 ^ w : Nat)
        | .big => ((256 ^ (b - w) : Nat) : Int) ∣ x) := by
  by_cases hwb : w = b
  · subst hwb
    simp
  have hlt : w < b := by omega
  have hres := residue_lt b x
  have hsplit : 256 ^ b = 256 ^ w * 256 ^ (b - w) := by rw [← Nat.pow_add]; congr 1; omega
  have hpw := pow256_pos w
  have hpd : 256 ≤ 256 ^ (b - w) := by
    have := Nat.pow_le_pow_right (n := 256) (by decide) (show 1 ≤ b - w by omega)
    simpa using this
  have hpb : 256 ^ w * 256 ≤ 256 ^ b := by rw [hsplit]; exact Nat.mul_le_mul_left _ hpd
  simp only [hwb, hlt, false_or, true_and]
  cases o with
  | little =>
    simp only [Endian.order]
    rw [leBytes_drop _ _ _ hw, leBytes_zero_iff]
    have hdiv : residue b x / 256 ^ w < 256 ^ (b - w) := by
      rw [Nat.div_lt_iff_lt_mul hpw, Nat.mul_comm, ← hsplit]; exact hres
    rw [Nat.mod_eq_of_lt hdiv, Nat.div_eq_zero_iff]
    constructor
    · rintro (h | h)
      · omega
      · have hx : x = residue b x := by
          have := ScalarTy.conv_of_inRange _ x hr
          cases s with
          | false => simp only [ScalarTy.conv] at this; exact this.symm
          | true =>
            simp only [ScalarTy.conv] at this
            rw [if_pos (by omega)] at this
            exact this.symm
        omega
    · rintro ⟨h0, h1⟩
      right
      have : (residue b x : Int) = x := residue_of_range b x h0 (by omega)
      omega
  | big =>
    simp only [Endian.order]
    rw [List.drop_reverse, leBytes_length, leBytes_take _ _ _ (by omega)]
    have : (leBytes (b - w) (residue b x)).reverse = List.replicate (b - w) 0 ↔
        leBytes (b - w) (residue b x) = List.replicate (b - w) 0 := by
      constructor
      · intro h
        have := congrArg List.reverse h
        simpa using this
      · intro h; rw [h]; simp
    rw [this, leBytes_zero_iff]
    have hc := residue_cast b x
    have hd : ((256 ^ (b - w) : Nat) : Int) ∣ ((256 ^ b : Nat) : Int) := by
      rw [hsplit]
      exact ⟨((256 ^ w : Nat) : Int), by rw [Int.natCast_mul, Int.mul_comm]⟩
    rw [← Nat.dvd_iff_mod_eq_zero, ← Int.natCast_dvd_natCast, hc]
    have hx := Int.emod_add_mul_ediv x ((256 ^ b : Nat) : Int)
    constructor
    · intro h
      rw [← hx]
      exact Int.dvd_add h (Int.dvd_mul_of_dvd_left hd)
    · intro h
      have : x % ((256 ^ b : Nat) : Int) = x - ((256 ^ b : Nat) : Int) * (x / ((256 ^ b : Nat) : Int)) := by
        omega
      rw [this]
      exact Int.dvd_sub h (Int.dvd_mul_of_dvd_left hd)

theorem append_eq_iff_take_drop (p z m : List Byte) (w : Nat) (hp : p.length = w) :
    p ++ z = m ↔ p = m.take w ∧ m.drop w = z := by
  subst hp
  constructor
  · rintro rfl; simp
  · rintro ⟨h1, h2⟩
    conv => rhs; rw [← List.take_append_drop p.length m, ← h1, h2]

/-- Successful `read_native_impl`. -/
theorem gives_readNativeImpl (size n : Nat) (p : List Byte) (mem : List Byte) :
    RdE.Gives (readNativeImpl size n) p mem ↔
      n ≤ size ∧ p.length = n ∧ mem = p ++ List.replicate (size - n) 0 := by
  unfold readNativeImpl
  split
  · rename_i h
    simp only [RdE.gives_stuck, false_iff]
    omega
  · rename_i h
    rw [RdE.gives_read]
    simp only [RdE.gives_ok]
    constructor
    · rintro ⟨q, r, rfl, hq, rfl, rfl⟩
      exact ⟨by omega, by simpa using hq, by simp⟩
    · rintro ⟨_, hp, rfl⟩
      exact ⟨p, [], by simp, hp, rfl, rfl⟩

theorem gives_value (o : Option α) (p : List Byte) (a : α) :
    RdE.Gives (RdE.value o : RdE ε α) p a ↔ p = [] ∧ o = some a := by
  cases o <;> simp [RdE.value, eq_comm]

theorem gives_lift (o : Except Stuck α) (p : List Byte) (a : α) :
    RdE.Gives (RdE.lift o : RdE ε α) p a ↔ p = [] ∧ o = .ok a := by
  cases o <;> simp [RdE.lift, eq_comm]

/-- A successful scalar read: exactly the values that fit, from exactly their encoding. -/
theorem gives_readNum (cfg : Cfg) (t : ScalarTy) (w : Nat) (p : List Byte) (v : Val) :
    RdE.Gives (readNum cfg t w) p v ↔
      ∃ x, v = .int x ∧ ScalarFits cfg.wire t w x ∧ p = wireScalar cfg.wire t.size w x := by
  simp only [readNum, RdE.gives_andThen, gives_readNativeImpl, gives_value, RdE.gives_ok]
  constructor
  · rintro ⟨mem, q, s, rfl, ⟨hw, hq, rfl⟩, x, _, _, rfl, ⟨rfl, hx⟩, rfl, rfl⟩
    simp only [List.append_nil]
    refine ⟨_, rfl, ?_⟩
    cases t with
    | int b s =>
      simp only [ScalarTy.ofMem, Option.some.injEq] at hx
      simp only [ScalarTy.size] at hw hx ⊢
      subst hx
      have hlen : (q ++ List.replicate (b - w) 0).length = b := by simp; omega
      rw [swapped_value cfg b s _ hlen]
      obtain ⟨hr, hm⟩ := (value_iff_mem cfg.wire b s _ hlen _).mp rfl
      rw [append_eq_iff_take_drop _ _ _ w hq] at hm
      refine ⟨⟨hr, (drop_zero_iff cfg.wire b w s _ hw hr).mp hm.2⟩, ?_⟩
      rw [wireScalar_eq _ _ _ _ hw]
      exact hm.1
    | bool =>
      simp only [ScalarTy.size] at hw hx ⊢
      have hx2 : (if cfg.foreign = true then ScalarTy.bool.byteswap x else x) = x := by
        simp [ScalarTy.byteswap]
      rw [hx2]
      match w, q, hq with
      | 0, [], _ =>
        simp only [ScalarTy.ofMem, List.nil_append, List.replicate, if_true, Option.some.injEq,
          Nat.sub_zero] at hx
        subst hx
        refine ⟨⟨.inl rfl, .inr ⟨by simp [ScalarTy.size], ?_⟩⟩, ?_⟩
        · cases cfg.wire <;> simp
        · cases cfg.wire <;> simp [wireScalar]
      | 1, [c], _ =>
        simp only [ScalarTy.ofMem, List.cons_append, List.nil_append, Nat.sub_self,
          List.replicate] at hx
        split at hx
        · cases hx
          rename_i h
          subst h
          refine ⟨⟨.inl rfl, .inl rfl⟩, ?_⟩
          cases cfg.wire <;> rfl
        · split at hx
          · cases hx
            rename_i h
            subst h
            refine ⟨⟨.inr rfl, .inl rfl⟩, ?_⟩
            cases cfg.wire <;> rfl
          · cases hx
      | n + 2, _, _ => omega
  · rintro ⟨x, rfl, ⟨hr, hf⟩, rfl⟩
    have hw : w ≤ t.size := by rcases hf with h | ⟨h, _⟩ <;> omega
    cases t with
    | int b s =>
      simp only [ScalarTy.size] at hw hf ⊢
      have hd := (drop_zero_iff cfg.wire b w s x hw hr).mpr hf
      have hm := (append_eq_iff_take_drop (wireScalar cfg.wire b w x) (List.replicate (b - w) 0)
        (cfg.wire.order (leBytes b (residue b x))) w (by simp)).mpr
        ⟨wireScalar_eq _ _ _ _ hw, hd⟩
      have hlen : (wireScalar cfg.wire b w x ++ List.replicate (b - w) 0).length = b := by
        simp; omega
      refine ⟨_, wireScalar cfg.wire b w x, [], by simp, ⟨hw, by simp, rfl⟩, _, [], [], rfl,
        ⟨rfl, rfl⟩, rfl, ?_⟩
      rw [swapped_value cfg b s _ hlen]
      congr 1
      exact (value_iff_mem cfg.wire b s _ hlen x).mpr ⟨hr, hm⟩
    | bool =>
      simp only [ScalarTy.size] at hw hf ⊢
      refine ⟨_, wireScalar cfg.wire 1 w x, [], by simp, ⟨hw, by simp, rfl⟩, x, [], [], rfl,
        ⟨rfl, ?_⟩, rfl, by simp [ScalarTy.byteswap]⟩
      match w, hw, hf with
      | 0, _, hf =>
        have hx : x = 0 := by
          rcases hf with h | ⟨_, h⟩
          · omega
          · rcases hr with rfl | rfl
            · rfl
            · exfalso
              cases hw : cfg.wire <;> rw [hw] at h
              · simp at h
              · simp at h
        subst hx
        simp [wireScalar]
        cases cfg.wire <;> rfl
      | 1, _, _ =>
        rcases hr with rfl | rfl <;> cases cfg.wire <;> rfl
      | n + 2, h, _ => omega

/-! ### Elements -/

theorem order_short (o : Endian) (bs : List Byte) (h : bs.length ≤ 1) : o.order bs = bs := by
  cases o with
  | little => rfl
  | big =>
    match bs, h with
    | [], _ => rfl
    | [_], _ => rfl

theorem wireElem_length (o : Endian) (e : ElemTy) (v : Val) (h : ElemFits e v) :
    (wireElem o e v).length = e.size := by
  induction e generalizing v with
  | scalar t =>
    cases v <;> simp only [ElemFits] at h
    simp [wireElem, ElemTy.size]
  | arr e n ih =>
    cases v with
    | seq vs =>
      simp only [ElemFits] at h
      obtain ⟨rfl, h⟩ := h
      simp only [wireElem, ElemTy.size]
      induction vs with
      | nil => simp
      | cons v vs ihv =>
        simp only [List.flatMap_cons, List.length_append, List.length_cons]
        rw [ih v (h v (by simp)), ihv (fun u hu => h u (by simp [hu])), Nat.add_mul]
        omega
    | _ => simp [ElemFits] at h

/-- Cutting memory into elements. `g` is applied to each decoded element. -/
theorem decodeN_iff (f : List Byte → Option Val) (g : Val → Val) (size : Nat)
    (P : Val → Prop) (W : Val → List Byte)
    (hf : ∀ m : List Byte, m.length = size → ∀ v,
      (∃ v', f m = some v' ∧ v = g v') ↔ P v ∧ m = W v)
    (hW : ∀ v, P v → (W v).length = size)
    (n : Nat) (mem : List Byte) (hlen : mem.length = n * size) (vs : List Val) :
    (∃ vs', decodeN f size n mem = some vs' ∧ vs = vs'.map g) ↔
      vs.length = n ∧ (∀ v ∈ vs, P v) ∧ mem = vs.flatMap W := by
  induction n generalizing mem vs with
  | zero =>
    have : mem = [] := by simpa using hlen
    subst this
    simp only [decodeN, Option.some.injEq]
    constructor
    · rintro ⟨_, rfl, rfl⟩; simp
    · rintro ⟨h, _⟩
      exact ⟨[], rfl, by simpa using h⟩
  | succ n ih =>
    have h1 : (mem.take size).length = size := by
      rw [List.length_take, hlen, Nat.add_mul]; omega
    have h2 : (mem.drop size).length = n * size := by
      rw [List.length_drop, hlen, Nat.add_mul]; omega
    simp only [decodeN]
    constructor
    · rintro ⟨vs', h, rfl⟩
      cases hv : f (mem.take size) with
      | none => simp [hv] at h
      | some v =>
        cases hvs : decodeN f size n (mem.drop size) with
        | none => simp [hv, hvs] at h
        | some ws =>
          simp only [hv, hvs, Option.some.injEq] at h
          subst h
          obtain ⟨ha, hb⟩ := (hf _ h1 (g v)).mp ⟨v, hv, rfl⟩
          obtain ⟨hc, hd, he⟩ := (ih _ h2 (ws.map g)).mp ⟨ws, hvs, rfl⟩
          refine ⟨by simp at hc; simp [hc], ?_, ?_⟩
          · intro u hu
            rw [List.map_cons, List.mem_cons] at hu
            rcases hu with rfl | hu
            · exact ha
            · exact hd u hu
          · rw [List.map_cons, List.flatMap_cons, ← hb, ← he, List.take_append_drop]
    · rintro ⟨hl, hP, hm⟩
      cases vs with
      | nil => simp at hl
      | cons v vs =>
        rw [List.flatMap_cons] at hm
        have hs := hW v (hP v (by simp))
        have ht : mem.take size = W v := by rw [hm, ← hs, List.take_left]
        have hdr : mem.drop size = vs.flatMap W := by rw [hm, ← hs, List.drop_left]
        obtain ⟨v', hv', rfl⟩ := (hf _ h1 v).mpr ⟨hP v (by simp), ht⟩
        obtain ⟨vs', hvs', rfl⟩ := (ih _ h2 vs).mpr
          ⟨by simpa using hl, fun u hu => hP u (by simp [hu]), hdr⟩
        exact ⟨v' :: vs', by simp [hv', hvs'], by simp⟩

/-- One element decoded and swapped. -/
theorem ofMem_elem_iff (cfg : Cfg) (e : ElemTy) (m : List Byte) (hm : m.length = e.size) (v : Val) :
    (∃ v', e.ofMem cfg.host m = some v' ∧ v = if cfg.foreign then e.swap v' else v') ↔
      ElemFits e v ∧ m = wireElem cfg.wire e v := by
  induction e generalizing m v with
  | scalar t =>
    simp only [ElemTy.size] at hm
    cases t with
    | int b s =>
      simp only [ScalarTy.size] at hm
      have key : ∀ x : Int, (x = (ScalarTy.int b s).conv (leNat (cfg.wire.order m))) ↔
          (ScalarTy.int b s).InRange x ∧ m = wireScalar cfg.wire b b x := by
        intro x
        rw [value_iff_mem cfg.wire b s m hm, wireScalar_eq _ _ _ _ (Nat.le_refl b)]
        rw [show (cfg.wire.order (leBytes b (residue b x))).take b =
          cfg.wire.order (leBytes b (residue b x)) from List.take_of_length_le (by simp)]
      have hval : (if cfg.foreign then
          (ElemTy.scalar (ScalarTy.int b s)).swap
            (.int ((ScalarTy.int b s).conv (leNat (cfg.host.order m))))
          else .int ((ScalarTy.int b s).conv (leNat (cfg.host.order m)))) =
          Val.int ((ScalarTy.int b s).conv (leNat (cfg.wire.order m))) := by
        rw [← swapped_value cfg b s m hm]
        by_cases hf : cfg.foreign = true
        · simp only [hf, if_true, ElemTy.swap, ScalarTy.size]
          by_cases hb : b > 1
          · simp [hb]
          · simp only [hb, if_false]
            rw [ofMem_foreign _ _ _ _ hm]
            have : (cfg.host.order m).reverse = cfg.host.order m := by
              have := order_short .big (cfg.host.order m) (by simp; omega)
              simpa [Endian.order] using this
            rw [this]
        · simp [hf]
      simp only [ElemTy.ofMem, ScalarTy.ofMem, Option.map_some, Option.some.injEq]
      constructor
      · rintro ⟨v', rfl, rfl⟩
        rw [hval]
        exact (key _).mp rfl
      · intro h
        refine ⟨_, rfl, ?_⟩
        rw [hval]
        cases v with
        | int x => exact congrArg Val.int ((key x).mpr h)
        | _ => simp [ElemFits] at h
    | bool =>
      simp only [ScalarTy.size] at hm
      match m, hm with
      | [c], _ =>
        have hsw : ∀ v' : Val, (if cfg.foreign = true then (ElemTy.scalar .bool).swap v' else v') = v' := by
          intro v'
          cases v' <;> simp [ElemTy.swap, ScalarTy.size]
        simp only [hsw, ElemTy.ofMem, ScalarTy.ofMem]
        have hz : ∀ o : Endian, wireScalar o 1 1 0 = [0] := by intro o; cases o <;> rfl
        have ho : ∀ o : Endian, wireScalar o 1 1 1 = [1] := by intro o; cases o <;> rfl
        constructor
        · rintro ⟨v', h, rfl⟩
          split at h
          · rename_i hc
            subst hc
            cases h
            exact ⟨.inl rfl, by simp [wireElem, ScalarTy.size, hz]⟩
          · split at h
            · rename_i hc
              subst hc
              cases h
              exact ⟨.inr rfl, by simp [wireElem, ScalarTy.size, ho]⟩
            · cases h
        · rintro ⟨h1, h2⟩
          cases v with
          | int x =>
            rcases h1 with rfl | rfl
            · simp only [wireElem, ScalarTy.size, hz] at h2
              cases h2
              exact ⟨_, rfl, rfl⟩
            · simp only [wireElem, ScalarTy.size, ho] at h2
              cases h2
              exact ⟨_, rfl, rfl⟩
          | _ => simp [ElemFits] at h1
  | arr e n ih =>
    simp only [ElemTy.size] at hm
    have hN := decodeN_iff (e.ofMem cfg.host) (fun v' => if cfg.foreign then e.swap v' else v')
      e.size (ElemFits e) (wireElem cfg.wire e) (fun m hm v => ih m hm v)
      (fun v hv => wireElem_length _ _ _ hv) n m hm
    have hswap : ∀ vs' : List Val, (if cfg.foreign = true then (ElemTy.arr e n).swap (.seq vs') else .seq vs')
        = .seq (vs'.map fun v' => if cfg.foreign then e.swap v' else v') := by
      intro vs'
      by_cases hf : cfg.foreign = true <;> simp [hf, ElemTy.swap]
    simp only [ElemTy.ofMem]
    constructor
    · rintro ⟨v', h, rfl⟩
      cases hd : decodeN (e.ofMem cfg.host) e.size n m with
      | none => simp [hd] at h
      | some vs' =>
        simp only [hd, Option.map_some, Option.some.injEq] at h
        subst h
        rw [hswap]
        obtain ⟨h1, h2, h3⟩ := (hN _).mp ⟨vs', hd, rfl⟩
        exact ⟨⟨h1, h2⟩, h3⟩
    · rintro ⟨h1, h2⟩
      cases v with
      | seq vs =>
        obtain ⟨h1, h3⟩ := h1
        obtain ⟨vs', hd, hvs⟩ := (hN vs).mpr ⟨h1, h3, h2⟩
        exact ⟨.seq vs', by simp [hd], by rw [hswap, hvs]⟩
      | _ => simp [ElemFits] at h1

theorem swapIfForeign_eq (cfg : Cfg) (e : ElemTy) (vs : List Val) :
    swapIfForeign cfg e vs = vs.map fun v' => if cfg.foreign then e.swap v' else v' := by
  by_cases h : cfg.foreign = true <;> simp [swapIfForeign, h]

/-- A block of `n` elements decoded and swapped. -/
theorem decode_block_iff (cfg : Cfg) (e : ElemTy) (n : Nat) (mem : List Byte)
    (hlen : mem.length = n * e.size) (vs : List Val) :
    (∃ vs', decodeN (e.ofMem cfg.host) e.size n mem = some vs' ∧ vs = swapIfForeign cfg e vs') ↔
      vs.length = n ∧ (∀ v ∈ vs, ElemFits e v) ∧ mem = vs.flatMap (wireElem cfg.wire e) := by
  simp only [swapIfForeign_eq]
  exact decodeN_iff _ _ _ _ _ (fun m hm v => ofMem_elem_iff cfg e m hm v)
    (fun v hv => wireElem_length _ _ _ hv) n mem hlen vs

theorem flatMap_length (W : Val → List Byte) (size : Nat) (vs : List Val)
    (h : ∀ v ∈ vs, (W v).length = size) : (vs.flatMap W).length = vs.length * size := by
  induction vs with
  | nil => simp
  | cons v vs ih =>
    rw [List.flatMap_cons, List.length_append, List.length_cons, h v (by simp),
      ih fun u hu => h u (by simp [hu]), Nat.add_mul]
    omega

theorem gives_readFixedBuf (cfg : Cfg) (e : ElemTy) (n : Nat) (p : List Byte) (v : Val) :
    RdE.Gives (readFixedBuf cfg e n) p v ↔
      ∃ vs, v = .seq vs ∧ (vs.length = n ∧ ∀ u ∈ vs, ElemFits e u) ∧
        p = vs.flatMap (wireElem cfg.wire e) := by
  simp only [readFixedBuf, RdE.gives_andThen, gives_readNativeImpl, gives_value, RdE.gives_ok]
  constructor
  · rintro ⟨mem, q, s, rfl, ⟨_, hq, rfl⟩, vs', _, _, rfl, ⟨rfl, hx⟩, rfl, rfl⟩
    simp only [Nat.sub_self, List.replicate, List.append_nil] at hx ⊢
    obtain ⟨h1, h2, h3⟩ := (decode_block_iff cfg e n q hq _).mp ⟨vs', hx, rfl⟩
    exact ⟨_, rfl, ⟨h1, h2⟩, h3⟩
  · rintro ⟨vs, rfl, ⟨h1, h2⟩, rfl⟩
    have hl := flatMap_length (wireElem cfg.wire e) e.size vs
      (fun v hv => wireElem_length _ _ _ (h2 v hv))
    rw [h1] at hl
    obtain ⟨vs', hd, hv⟩ := (decode_block_iff cfg e n _ hl vs).mpr ⟨h1, h2, rfl⟩
    refine ⟨_, _, [], by simp, ⟨Nat.le_refl _, hl, rfl⟩, vs', [], [], rfl, ⟨rfl, ?_⟩, rfl, by rw [hv]⟩
    simpa using hd

theorem wireElem_u8 (o : Endian) (b : Byte) :
    wireElem o (.scalar u8) (.int b.toNat) = [b] := by
  simp only [wireElem, ScalarTy.size]
  rw [wireScalar_eq _ _ _ _ (Nat.le_refl _), order_short _ _ (by simp)]
  simp [leBytes, residue_ofNat]

theorem gives_readFixedStr (o : Endian) (n : Nat) (p : List Byte) (v : Val) :
    RdE.Gives (readFixedStr n) p v ↔
      ∃ vs, v = .seq vs ∧ (vs.length = n + 1 ∧ ∀ u ∈ vs, ElemFits (.scalar u8) u) ∧
        p = vs.flatMap (wireElem o (.scalar u8)) := by
  simp only [readFixedStr, RdE.gives_andThen, gives_readNativeImpl, RdE.gives_ok]
  constructor
  · rintro ⟨mem, q, s, rfl, ⟨_, hq, rfl⟩, rfl, rfl⟩
    simp only [Nat.sub_self, List.replicate, List.append_nil]
    refine ⟨_, rfl, ⟨by simpa using hq, ?_⟩, ?_⟩
    · intro u hu
      rw [List.mem_map] at hu
      obtain ⟨b, _, rfl⟩ := hu
      have := b.toNat_lt
      simp only [ElemFits, ScalarTy.InRange]
      omega
    · clear hq
      induction q with
      | nil => rfl
      | cons b q ih => rw [List.map_cons, List.flatMap_cons, wireElem_u8, ← ih]; rfl
  · rintro ⟨vs, rfl, ⟨h1, h2⟩, rfl⟩
    have hl := flatMap_length (wireElem o (.scalar u8)) 1 vs
      (fun v hv => wireElem_length o (.scalar u8) _ (h2 v hv))
    refine ⟨_, _, [], (List.append_nil _).symm, ⟨Nat.le_refl _, by rw [hl, h1, Nat.mul_one], rfl⟩,
      rfl, ?_⟩
    simp only [Nat.sub_self, List.replicate, List.append_nil, Val.seq.injEq]
    clear hl h1
    induction vs with
    | nil => rfl
    | cons v vs ih =>
      have hv := h2 v (by simp)
      cases v with
      | int x =>
        simp only [ElemFits, ScalarTy.InRange] at hv
        obtain ⟨b, rfl⟩ : ∃ b : Byte, x = b.toNat := by
          refine ⟨UInt8.ofNat x.toNat, ?_⟩
          rw [UInt8.toNat_ofNat']
          omega
        rw [List.flatMap_cons, wireElem_u8, List.map_append, ← ih fun u hu => h2 u (by simp [hu])]
        rfl
      | _ => simp [ElemFits] at hv

/-! ### Repetition -/

theorem gives_repeatE (r : RdE ε Val) (P : Val → Prop) (W : Val → List Byte)
    (hr : ∀ p v, RdE.Gives r p v ↔ P v ∧ p = W v) (n : Nat) (p : List Byte) (vs : List Val) :
    RdE.Gives (repeatE r n) p vs ↔ vs.length = n ∧ (∀ v ∈ vs, P v) ∧ p = vs.flatMap W := by
  induction n generalizing p vs with
  | zero =>
    simp only [repeatE, RdE.gives_ok]
    constructor
    · rintro ⟨rfl, rfl⟩; simp
    · rintro ⟨h, _, rfl⟩
      have : vs = [] := by simpa using h
      subst this
      simp
  | succ n ih =>
    simp only [repeatE, RdE.gives_andThen, RdE.gives_ok, hr, ih]
    constructor
    · rintro ⟨v, q, s, rfl, ⟨hv, rfl⟩, vs', _, _, rfl, ⟨hl, hP, rfl⟩, rfl, rfl⟩
      refine ⟨by simp [hl], ?_, by simp⟩
      intro u hu
      rw [List.mem_cons] at hu
      rcases hu with rfl | hu
      · exact hv
      · exact hP u hu
    · rintro ⟨hl, hP, rfl⟩
      cases vs with
      | nil => simp at hl
      | cons v vs =>
        refine ⟨v, W v, vs.flatMap W, by simp, ⟨hP v (by simp), rfl⟩, vs, _, [], by simp,
          ⟨by simpa using hl, fun u hu => hP u (by simp [hu]), rfl⟩, rfl, rfl⟩

/-! ### Vectors -/

theorem checkedByteCount_ok (cfg : Cfg) (size ceiling len n : Nat) (hs : 0 < size) :
    checkedByteCount cfg size ceiling len = .ok n ↔
      len * size ≤ ceiling ∧ n = len * size % cfg.szMod := by
  unfold checkedByteCount
  split
  · rename_i h
    have : ¬ len * size ≤ ceiling := by
      rw [← Nat.le_div_iff_mul_le hs]; omega
    simp [this]
  · rename_i h
    have : len * size ≤ ceiling := by
      rw [← Nat.le_div_iff_mul_le hs]; omega
    simp [this, eq_comm]

theorem ptrdiff_lt (cfg : Cfg) (n : Nat) (h : n ≤ cfg.ptrdiffMax) : n < cfg.szMod := by
  have := pow256_pos cfg.szBytes
  unfold Cfg.ptrdiffMax at h
  unfold Cfg.szMod at *
  omega

theorem gives_resize (cfg : Cfg) (n : Nat) (k : RdE ε α) (p : List Byte) (a : α) :
    RdE.Gives (resize cfg n k) p a ↔ n ≤ cfg.ptrdiffMax ∧ RdE.Gives k p a := by
  unfold resize
  split
  · simp; omega
  · rw [RdE.gives_alloc]
    have : n ≤ cfg.ptrdiffMax := by omega
    simp [this]

theorem gives_readVec (cfg : Cfg) (e : ElemTy) (ceiling len : Nat) (hs : 0 < e.size)
    (p : List Byte) (v : Val) :
    RdE.Gives (readVec cfg e ceiling len) p v ↔
      ∃ vs, v = .seq vs ∧ vs.length = len ∧ (len * e.size ≤ ceiling ∧ len * e.size ≤ cfg.ptrdiffMax) ∧
        (∀ u ∈ vs, ElemFits e u) ∧ p = vs.flatMap (wireElem cfg.wire e) := by
  unfold readVec
  cases hc : checkedByteCount cfg e.size ceiling len with
  | error r =>
    simp only [RdE.gives_err, false_iff]
    rintro ⟨vs, rfl, _, ⟨h1, _⟩, _⟩
    have := (checkedByteCount_ok cfg e.size ceiling len _ hs).mpr ⟨h1, rfl⟩
    rw [hc] at this
    cases this
  | ok n =>
    obtain ⟨hc1, hc2⟩ := (checkedByteCount_ok cfg e.size ceiling len n hs).mp hc
    simp only [gives_resize]
    by_cases hmode : cfg.constexprStream = true
    · simp only [hmode, if_true, RdE.gives_andThen, RdE.gives_ok]
      have hone : ∀ q u, (∃ u', RdE.Gives (readElem cfg e) q u' ∧
          u = if cfg.foreign then e.swap u' else u') ↔
          ElemFits e u ∧ q = wireElem cfg.wire e u := by
        intro q u
        simp only [readElem, RdE.gives_andThen, gives_readNativeImpl, gives_value]
        constructor
        · rintro ⟨u', ⟨mem, q, s, rfl, ⟨_, hq, rfl⟩, rfl, hx⟩, hu⟩
          simp only [Nat.sub_self, List.replicate, List.append_nil] at hx ⊢
          exact (ofMem_elem_iff cfg e q hq u).mp ⟨u', hx, hu⟩
        · rintro ⟨h1, rfl⟩
          have hl := wireElem_length cfg.wire e u h1
          obtain ⟨u', h2, h3⟩ := (ofMem_elem_iff cfg e _ hl u).mpr ⟨h1, rfl⟩
          exact ⟨u', ⟨_, _, [], by simp, ⟨Nat.le_refl _, hl, rfl⟩, rfl, by simpa using h2⟩, h3⟩
      -- repetition, then the swap of all elements
      have hrep : ∀ (m : Nat) (q : List Byte) (us : List Val),
          (∃ us', RdE.Gives (repeatE (readElem cfg e) m) q us' ∧
            us = us'.map fun u' => if cfg.foreign then e.swap u' else u') ↔
          us.length = m ∧ (∀ u ∈ us, ElemFits e u) ∧ q = us.flatMap (wireElem cfg.wire e) := by
        intro m
        induction m with
        | zero =>
          intro q us
          simp only [repeatE, RdE.gives_ok]
          constructor
          · rintro ⟨_, ⟨rfl, rfl⟩, rfl⟩; simp
          · rintro ⟨h, _, rfl⟩
            have : us = [] := by simpa using h
            subst this
            exact ⟨[], by simp⟩
        | succ m ih =>
          intro q us
          simp only [repeatE, RdE.gives_andThen, RdE.gives_ok]
          constructor
          · rintro ⟨_, ⟨u', q1, q2, rfl, h1, us', q3, _, rfl, h2, rfl, rfl⟩, rfl⟩
            obtain ⟨ha, rfl⟩ := (hone q1 _).mp ⟨u', h1, rfl⟩
            obtain ⟨hb, hc, rfl⟩ := (ih q3 _).mp ⟨us', h2, rfl⟩
            refine ⟨by simp at hb; simp [hb], ?_, by simp⟩
            intro u hu
            rw [List.map_cons, List.mem_cons] at hu
            rcases hu with rfl | hu
            · exact ha
            · exact hc u hu
          · rintro ⟨hl, hP, rfl⟩
            cases us with
            | nil => simp at hl
            | cons u us =>
              obtain ⟨u', h1, hu⟩ := (hone _ u).mpr ⟨hP u (by simp), rfl⟩
              obtain ⟨us', h2, hus⟩ := (ih _ us).mpr
                ⟨by simpa using hl, fun u hu => hP u (by simp [hu]), rfl⟩
              exact ⟨u' :: us', ⟨u', _, _, by rw [List.flatMap_cons], h1, us', _, [], by simp, h2,
                rfl, rfl⟩, by rw [List.map_cons, ← hu, ← hus]⟩
      constructor
      · rintro ⟨hp, vs', q, _, rfl, h, rfl, rfl⟩
        rw [swapIfForeign_eq]
        obtain ⟨h1, h2, h3⟩ := (hrep len q _).mp ⟨vs', h, rfl⟩
        exact ⟨_, rfl, h1, ⟨hc1, hp⟩, h2, by simpa using h3⟩
      · rintro ⟨vs, rfl, h1, ⟨_, hp⟩, h2, rfl⟩
        obtain ⟨vs', h, hv⟩ := (hrep len _ vs).mpr ⟨h1, h2, rfl⟩
        exact ⟨hp, vs', _, [], by simp, h, rfl, by rw [swapIfForeign_eq, ← hv]⟩
    · simp only [hmode, if_false, Bool.false_eq_true, RdE.gives_andThen, RdE.gives_ok,
        gives_readNativeImpl, gives_value]
      constructor
      · rintro ⟨hp, mem, q, s, rfl, ⟨_, hq, rfl⟩, vs', _, _, rfl, ⟨rfl, hx⟩, rfl, rfl⟩
        rw [Nat.mod_eq_of_lt (ptrdiff_lt cfg _ hp)] at hc2
        subst hc2
        simp only [Nat.sub_self, List.replicate, List.append_nil] at hx ⊢
        obtain ⟨h1, h2, h3⟩ := (decode_block_iff cfg e len q hq _).mp ⟨vs', hx, rfl⟩
        exact ⟨_, rfl, h1, ⟨hc1, hp⟩, h2, h3⟩
      · rintro ⟨vs, rfl, h1, ⟨_, hp⟩, h2, rfl⟩
        rw [Nat.mod_eq_of_lt (ptrdiff_lt cfg _ hp)] at hc2
        subst hc2
        have hl := flatMap_length (wireElem cfg.wire e) e.size vs
          (fun v hv => wireElem_length _ _ _ (h2 v hv))
        rw [h1] at hl
        obtain ⟨vs', hd, hv⟩ := (decode_block_iff cfg e len _ hl vs).mpr ⟨h1, h2, rfl⟩
        refine ⟨hp, _, _, [], by simp, ⟨Nat.le_refl _, hl, rfl⟩, vs', [], [], rfl, ⟨rfl, ?_⟩, rfl,
          by rw [hv]⟩
        simpa using hd

end S2S
