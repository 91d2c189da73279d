import Verif.Lemmas.Order
import Verif.Lemmas.TwinRun
import Verif.Props.Prefix
import Verif.Props.Numbers
/-
C25, C26, C63: byte order, hosts, and the two paths for vectors.
-/
namespace S2S.Props
open Spec Demo

/-! ## C25 -/

/-- C25, writing. The bytes of a field whose value consists of integers in full width
(a number; a buffer, string or vector of them, however nested; itself, or inside an
optional or a union) are the integers one after the other, each with its own bytes in
the order of the cast. Fields the library fills in: `C25_constant`, `C25_length`,
`C25_label`. Nothing is said about `cfg.host`: hosts of either order are meant. -/
theorem C25_write (cfg : Cfg) (pre post : List Field) (f : Field) (vpre vpost : List Val)
    (v : Val) (hwf : WellFormed (pre ++ f :: post)) (hres : Resolves (pre ++ f :: post))
    (hl : vpre.length = pre.length) (hty : Typed cfg (pre ++ f :: post) (vpre ++ v :: vpost))
    (hf : ∀ id k c, f = .plain id k c → k.isFixed = true →
      isSlot (pre ++ f :: post) id = false ∧ typedConst k c = none)
    {k : Kind} {u : Val} {t : ScalarTy} {xs : List Int} (hp : Payload f v k u) (hm : MadeOf k u t xs)
    (p : List Byte)
    (h : (streamCast cfg (pre ++ f :: post) (vpre ++ v :: vpost)).run = (.done (.ok ()), p)) :
    ∃ q r s, p = q ++ (r ++ s) ∧
      Puts cfg (pre ++ f :: post) (vpre ++ v :: vpost) pre vpre q ∧
      Puts cfg (pre ++ f :: post) (vpre ++ v :: vpost) post vpost s ∧
      EachInOrder cfg.wire t.size xs r := by
  obtain ⟨q, r, s, rfl, h1, h2, h3⟩ :=
    C39_transparent cfg pre post f vpre vpost v hwf hres hl hty hf p h
  refine ⟨q, r, s, rfl, h1, h2, ?_⟩
  rcases h3 with ⟨rfl, -⟩ | ⟨k', u', hp', hc⟩
  · cases hp
    cases hm
  · obtain ⟨rfl, rfl⟩ := payload_unique hp hp'
    cases hc with
    | leaf _ => exact each_wireKind _ hm
    | record _ => cases hm
    | array _ => cases hm
    | vector _ => cases hm

/-- The packet's vector of 16-bit integers: each in its own two bytes, high byte first. -/
example :=
  C25_write be64 (packet.take 3) (packet.drop 4) (packet[3]) (packetVal.take 3) (packetVal.drop 4)
    (packetVal[3]) (by decide) (by decide +kernel) rfl (by decide +kernel)
    (by intro _ _ _ h; cases h; intro h; cases h) .plain .vec packetBytes (by rfl)

/-- C25, constants (magic numbers, byte arrays, strings). -/
theorem C25_constant (cfg : Cfg) (pre post : List Field) (id : String) (k : Kind)
    (c : Constraint) (vpre vpost : List Val) (v u : Val) (hl : vpre.length = pre.length)
    (hu : typedConst k c = some u) (htu : TypedKind cfg k u) (hw : WidthOk k)
    (hslot : isSlot (pre ++ .plain id k c :: post) id = false)
    (hlen : ∀ f ∈ pre ++ Field.plain id k c :: post, id ∉ lengthTargets f)
    {t : ScalarTy} {xs : List Int} (hm : MadeOf k u t xs) (p : List Byte)
    (h : (streamCast cfg (pre ++ .plain id k c :: post) (vpre ++ v :: vpost)).run =
      (.done (.ok ()), p)) :
    ∃ q r s, p = q ++ (r ++ s) ∧
      Puts cfg (pre ++ .plain id k c :: post) (vpre ++ v :: vpost) pre vpre q ∧
      Puts cfg (pre ++ .plain id k c :: post) (vpre ++ v :: vpost) post vpost s ∧
      EachInOrder cfg.wire t.size xs r := by
  obtain ⟨q, s, rfl, h1, h2⟩ :=
    C19_emitted_partial cfg pre post id k c vpre vpost v u hl hu htu hw hslot hlen p h
  exact ⟨q, _, s, rfl, h1, h2, each_wireKind _ hm⟩

example :=
  C25_constant be64 [] (packet.drop 1) "magic" (.num u32 4) (.cmp .eq i32 0x1234) []
    (packetVal.drop 1) (.int 0) (.int 0x1234) rfl rfl (by decide) (by decide) (by decide)
    (by decide) .num packetBytes (by rfl)

/-- C25, length fields the library fills in. -/
theorem C25_length (cfg : Cfg) (pre post : List Field) (id : String) (t : ScalarTy)
    (c : Constraint) (vpre vpost : List Val) (v : Val)
    (hwf : WellFormed (pre ++ .plain id (.num t t.size) c :: post))
    (hl : vpre.length = pre.length)
    (hty : Typed cfg (pre ++ .plain id (.num t t.size) c :: post) (vpre ++ v :: vpost))
    (j : String) (k : Kind) (cj : Constraint) (us : List Val)
    (hm : (Field.plain j k cj, Val.seq us) ∈
      (pre ++ .plain id (.num t t.size) c :: post).zip (vpre ++ v :: vpost))
    (ht : k.lenTarget? = some id) (p : List Byte)
    (h : (streamCast cfg (pre ++ .plain id (.num t t.size) c :: post) (vpre ++ v :: vpost)).run =
      (.done (.ok ()), p)) :
    ∃ q r s, p = q ++ (r ++ s) ∧
      Puts cfg (pre ++ .plain id (.num t t.size) c :: post) (vpre ++ v :: vpost) pre vpre q ∧
      Puts cfg (pre ++ .plain id (.num t t.size) c :: post) (vpre ++ v :: vpost) post vpost s ∧
      InOrder cfg.wire t.size us.length r := by
  obtain ⟨q, r, s, rfl, h1, h2, rfl, -⟩ :=
    C15_length_partial cfg pre post id t t.size c vpre vpost v hwf hl hty j k cj us hm ht p h
  exact ⟨q, _, s, rfl, h1, h2, inOrder_wireScalar ..⟩

example :=
  C25_length be64 (packet.take 1) (packet.drop 2) "len" u16 .none (packetVal.take 1)
    (packetVal.drop 2) (.int 0) (by decide) rfl (by decide +kernel) "data"
    (.vec (.scalar u16) (.fromField "len") (some 64)) .none [.int 1, .int 2, .int 0xabcd]
    (by simp [packet, packetVal]) rfl packetBytes (by rfl)

/-- C25, discriminants the library fills in. -/
theorem C25_label (cfg : Cfg) (pre post : List Field) (id : String) (t : ScalarTy)
    (c : Constraint) (vpre vpost : List Val) (v : Val)
    (hwf : WellFormed (pre ++ .plain id (.num t t.size) c :: post))
    (hl : vpre.length = pre.length)
    (hty : Typed cfg (pre ++ .plain id (.num t t.size) c :: post) (vpre ++ v :: vpost))
    (j : String) (labels : List (ScalarTy × Int)) (alts : List Alt) (cj : Constraint)
    (i : Nat) (u : Val)
    (hm : (Field.union j (.matchField id t labels) alts cj, Val.var i u) ∈
      (pre ++ .plain id (.num t t.size) c :: post).zip (vpre ++ v :: vpost))
    (hlab : (∀ l ∈ labels, t.InRange l.2 ∧
      (t.size ≤ cfg.szBytes ∨ 0 ≤ l.2 ∧ l.2 < (cfg.szMod : Nat))) ∧ (labels.map Prod.snd).Nodup)
    (p : List Byte)
    (h : (streamCast cfg (pre ++ .plain id (.num t t.size) c :: post) (vpre ++ v :: vpost)).run =
      (.done (.ok ()), p)) :
    ∃ l q r s, labels[i]? = some l ∧ p = q ++ (r ++ s) ∧
      Puts cfg (pre ++ .plain id (.num t t.size) c :: post) (vpre ++ v :: vpost) pre vpre q ∧
      Puts cfg (pre ++ .plain id (.num t t.size) c :: post) (vpre ++ v :: vpost) post vpost s ∧
      InOrder cfg.wire t.size l.2 r := by
  obtain ⟨l, q, r, s, h0, rfl, h1, h2, rfl, -⟩ :=
    C16_label_partial cfg pre post id t t.size c vpre vpost v hwf hl hty (.inl rfl) j labels alts
      cj i u hm hlab p h
  exact ⟨l, q, _, s, h0, rfl, h1, h2, inOrder_wireScalar ..⟩

example :=
  C25_label be64 (packet.take 2) (packet.drop 3) "tag" u8 .none (packetVal.take 2)
    (packetVal.drop 3) (.int 0) (by decide) rfl (by decide +kernel) "body" [(i32, 1), (i32, 7)]
    [.mk (.num u32 4) (.cmp .lt u32 1000), .mk (.record inner) .none] .none 1
    (.seq [.int (-1), .present (.int 0x0102)]) (by simp [packet, packetVal]) (by decide +kernel)
    packetBytes (by rfl)

/-- C25, reading: where a field of a parsed struct consists of integers in full width,
their bytes stood on the input, each in the order of the cast. The fields before it had
been read up to that place, and it up to the end of those bytes. -/
theorem C25_read (cfg : Cfg) (pre post : List Field) (f : Field) (vpre vpost : List Val)
    (v : Val) (hwf : WellFormed (pre ++ f :: post)) (hl : vpre.length = pre.length)
    {k : Kind} {u : Val} {t : ScalarTy} {xs : List Int} (hp : Payload f v k u) (hm : MadeOf k u t xs)
    (inp rest : List Byte)
    (h : (structCast cfg (pre ++ f :: post)).run inp = (.done (.ok (vpre ++ v :: vpost)), rest)) :
    ∃ q r s, inp = q ++ (r ++ s) ∧
      (structCast cfg pre).run inp = (.done (.ok vpre), r ++ s) ∧
      (structCast cfg (pre ++ [f])).run inp = (.done (.ok (vpre ++ [v])), s) ∧
      EachInOrder cfg.wire t.size xs r := by
  have hwf' : WellFormed ((pre ++ [f]) ++ post) := by simpa using hwf
  obtain ⟨m1, h1⟩ := run_prefix hwf hl h
  obtain ⟨m2, h2⟩ := run_prefix (vpre := vpre ++ [v]) hwf' (by simp [hl]) (by simpa using h)
  have e1 := ((read_iff cfg pre (wf_prefix hwf) _ _ _).1 h1).2
  have e2 := ((read_iff cfg (pre ++ [f]) (wf_prefix hwf') _ _ _).1 h2).2
  have e3 : wire cfg (pre ++ [f]) (vpre ++ [v]) = wire cfg pre vpre ++ wireKind cfg.wire k u := by
    show wireFields _ _ _ = _
    rw [wireFields_append _ _ _ _ _ hl]
    simp only [wireFields, List.append_nil, wireField_payload _ hp]
    rfl
  rw [e3, List.append_assoc] at e2
  obtain rfl : m1 = wireKind cfg.wire k u ++ m2 := List.append_cancel_left (e1.symm.trans e2)
  exact ⟨_, _, m2, e1, h1, h2, each_wireKind _ hm⟩

example :=
  C25_read be64 (packet.take 3) (packet.drop 4) (packet[3]) (packetParsed.take 3)
    (packetParsed.drop 4) (packetParsed[3]) (by decide) rfl .plain .vec packetBytes [] (by rfl)

/-- C25, the inverse: bytes that hold the integers of a value in the order of the cast
are read as that value. -/
theorem C25_inverse (cfg : Cfg) (f : Field) (v : Val) (hwf : WellFormed [f]) (hv : Valid cfg [f] [v])
    {k : Kind} {u : Val} {t : ScalarTy} {xs : List Int} (hp : Payload f v k u) (hm : MadeOf k u t xs)
    (r rest : List Byte) (hr : EachInOrder cfg.wire t.size xs r) :
    (structCast cfg [f]).run (r ++ rest) = (.done (.ok [v]), rest) := by
  refine (read_iff cfg [f] hwf _ _ _).2 ⟨hv, ?_⟩
  congr 1
  show r = wireFields cfg.wire [f] [v]
  simp only [wireFields, List.append_nil, wireField_payload _ hp]
  exact each_unique hr (each_wireKind _ hm)

/-- A negative number, big endian. -/
example : (structCast be64 [.plain "x" (.num i16 2) .none]).run ([0xff, 0xfe] ++ [7]) =
    (.done (.ok [.int (-2)]), [7]) :=
  C25_inverse be64 _ _ (by decide) (by decide +kernel) .plain .num _ _
    (each_one ⟨rfl, fun i hi => by
      rcases i with _ | _ | i <;> first | exact ⟨_, rfl, by decide⟩ | exact absurd hi (by simp [ScalarTy.size])⟩)

/-- C25, strings and byte buffers: the bytes of a field made of integers of one byte are
the same in both orders, written on any two hosts. -/
theorem C25_bytes (cfg : Cfg) (o h : Endian) (pre post : List Field) (f : Field) (vpre vpost : List Val)
    (v : Val) (hwf : WellFormed (pre ++ f :: post)) (hres : Resolves (pre ++ f :: post))
    (hl : vpre.length = pre.length) (hty : Typed cfg (pre ++ f :: post) (vpre ++ v :: vpost))
    (hf : ∀ id k c, f = .plain id k c → k.isFixed = true →
      isSlot (pre ++ f :: post) id = false ∧ typedConst k c = none)
    {k : Kind} {u : Val} {t : ScalarTy} {xs : List Int} (hp : Payload f v k u) (hm : MadeOf k u t xs)
    (ht : t.size = 1) (p p' : List Byte)
    (h1 : (streamCast cfg (pre ++ f :: post) (vpre ++ v :: vpost)).run = (.done (.ok ()), p))
    (h2 : (streamCast {cfg with wire := o, host := h} (pre ++ f :: post) (vpre ++ v :: vpost)).run =
      (.done (.ok ()), p')) :
    ∃ q q' r s s', p = q ++ (r ++ s) ∧ p' = q' ++ (r ++ s') ∧
      Puts cfg (pre ++ f :: post) (vpre ++ v :: vpost) pre vpre q ∧
      Puts cfg (pre ++ f :: post) (vpre ++ v :: vpost) post vpost s ∧
      Puts {cfg with wire := o, host := h} (pre ++ f :: post) (vpre ++ v :: vpost) pre vpre q' ∧
      Puts {cfg with wire := o, host := h} (pre ++ f :: post) (vpre ++ v :: vpost) post vpost s' := by
  have hty' : Typed {cfg with wire := o, host := h} (pre ++ f :: post) (vpre ++ v :: vpost) :=
    typed_congr (cfg := cfg) (cfg' := {cfg with wire := o, host := h}) rfl hty
  obtain ⟨q, r, s, rfl, a1, a2, a3⟩ := C25_write cfg pre post f vpre vpost v hwf hres hl hty hf hp hm p h1
  obtain ⟨q', r', s', rfl, b1, b2, b3⟩ :=
    C25_write _ pre post f vpre vpost v hwf hres hl hty' hf hp hm p' h2
  rw [ht] at a3 b3
  obtain rfl := each_unique (each_byte o a3) b3
  exact ⟨q, q', r, s, s', rfl, rfl, a1, a2, b1, b2⟩

/-- A string in little and big endian, behind a number. -/
example := C25_bytes be64 .little .big [.plain "n" (.num u16 2) .none] [] (.plain "s" (.fstr 2) .none)
  [.int 0x0102] [] (.seq [.int 0x41, .int 0x42, .int 0]) (by decide) (by decide +kernel) rfl
  (by decide +kernel) (by intro _ _ _ h; cases h; intro _; exact ⟨rfl, rfl⟩) .plain .fstr rfl
  [1, 2, 0x41, 0x42, 0] [2, 1, 0x41, 0x42, 0] (by rfl) (by rfl)

/-- C25, host independence of reading: on every stream, a cast on a host of the other
byte order makes the same calls and allocations, ends alike and leaves the stream alike.
Schema and input are arbitrary. -/
theorem C25_host_read (cfg : Cfg) (h : Endian) (fs : List Field) (S : InStream) (s : S.State) :
    (structCast cfg fs).runOn S s = (structCast {cfg with host := h} fs).runOn S s ∧
    (structCast cfg fs).allocsOn S s = (structCast {cfg with host := h} fs).allocsOn S s ∧
    (structCast cfg fs).callsOn S s = (structCast {cfg with host := h} fs).callsOn S s :=
  (same_structCast cfg h fs).runOn S s

example : (structCast {be64 with host := .big} packet).runOn memstreamIn (packetBytes, false) =
    (.done (.ok packetParsed), ([], false)) :=
  (C25_host_read be64 .big packet memstreamIn (packetBytes, false)).1.symm

/-- C25, host independence of writing: a struct as C++ types it is written alike on hosts of
either byte order, on a stream that refuses nothing and on any that runs out of room. -/
theorem C25_host_write (cfg : Cfg) (h : Endian) (fs : List Field) (vs : List Val)
    (hc : Everywhere (TypedConsts cfg) fs) (hv : Typed cfg fs vs) :
    (streamCast cfg fs vs).run = (streamCast {cfg with host := h} fs vs).run ∧
    ∀ (S : OutStream) (content : S.State → List Byte) (good : S.State → Prop) (room : S.State → Nat),
      Capacity S content good room → ∀ s, good s →
      ((streamCast cfg fs vs).runOn S s).1 = ((streamCast {cfg with host := h} fs vs).runOn S s).1 ∧
      (((streamCast cfg fs vs).runOn S s).1 = .done (.ok ()) →
        content ((streamCast cfg fs vs).runOn S s).2 =
          content ((streamCast {cfg with host := h} fs vs).runOn S s).2) := by
  have ha := agree_streamCast cfg h cfg.constexprStream fs vs hc hv
  refine ⟨by rw [Wr.run_eq, ha.out, Wr.run_eq], fun S content good room hS s hg => ?_⟩
  obtain ⟨h1, h2⟩ := ha.streams hS hS s s hg hg rfl rfl
  exact ⟨h1, fun h3 => (h2 () h3).2.2⟩

example : (streamCast {be64 with host := .big} packet packetVal).run = (.done (.ok ()), packetBytes) :=
  (C25_host_write be64 .big packet packetVal (by decide +kernel) (by decide +kernel)).1.symm

/-! ## C26 and C63 -/

/-- A vector of pairs of `bool`. -/
def flags : List Field :=
  [.plain "n" (.num u8 1) .none,
   .plain "v" (.vec (.arr (.scalar .bool) 2) (.fromField "n") none) .none]

/-- Run time. -/
abbrev atRun (cfg : Cfg) : Cfg := {cfg with constexprStream := false}
/-- Compile time. -/
abbrev atCompile (cfg : Cfg) : Cfg := {cfg with constexprStream := true}

/-- C63, reading. From two healthy streams with the same bytes, one used at run time and
one at compile time, casts end alike: the same struct or the same error, or both outside
defined behaviour. After success the streams have the same bytes left. Schemas with a
vector of elements made of `bool` are left to `C63_read_bool`. -/
theorem C63_read (cfg : Cfg) (fs : List Field) (hsane : saneFields fs = true)
    (hb : noBoolVecFields fs = true) {S T : InStream} {cS : S.State → List Byte}
    {gS : S.State → Prop} {cT : T.State → List Byte} {gT : T.State → Prop}
    (hS : InContract S cS gS) (hT : InContract T cT gT) (s : S.State) (t : T.State)
    (hs : gS s) (ht : gT t) (hc : cS s = cT t) :
    ((structCast (atRun cfg) fs).runOn S s).1 = ((structCast (atCompile cfg) fs).runOn T t).1 ∧
    (∀ vs, ((structCast (atRun cfg) fs).runOn S s).1 = .done (.ok vs) →
      gS ((structCast (atRun cfg) fs).runOn S s).2 ∧
      gT ((structCast (atCompile cfg) fs).runOn T t).2 ∧
      cS ((structCast (atRun cfg) fs).runOn S s).2 =
        cT ((structCast (atCompile cfg) fs).runOn T t).2) := by
  have hb' : noBoolVecFields fs = false → False := by rw [hb]; exact fun h => by cases h
  rcases (agree_structCast cfg fs hsane hb').streams (short_structCast _ _) (short_structCast _ _)
    hS hT s t hs ht hc with ⟨hE, -⟩ | ⟨h1, h2⟩
  · exact hE.elim
  · refine ⟨h1, fun vs hv => ?_⟩
    have g1 : gS (Rd.runOn S (structCast (atRun cfg) fs) s).2 := healthy hS (short_structCast _ _) s hs hv
    have g2 : gT (Rd.runOn T (structCast (atCompile cfg) fs) t).2 :=
      healthy hT (short_structCast _ _) t ht (h1 ▸ hv)
    exact ⟨g1, g2, h2 g1 g2 vs hv⟩

/-- Run time from a `std::istream`, compile time from a `memstream`, input cut inside the vector. -/
example : ((structCast (atCompile be64) packet).runOn memstreamIn (packetBytes.take 10, false)).1 =
    .done (.error ⟨.bufferExhaustion, "data"⟩) :=
  (C63_read be64 packet (by decide) (by decide) stdIn_contract memstreamIn_contract
    (packetBytes.take 10, true) (packetBytes.take 10, false) rfl rfl rfl).1.symm

/-- C63, on one `memstream` (the library's own compile-time stream): the whole of the
stream's state is the same in the end, after errors too. -/
theorem C63_read_memstream (cfg : Cfg) (fs : List Field) (hsane : saneFields fs = true)
    (hb : noBoolVecFields fs = true) (inp : List Byte) :
    (structCast (atRun cfg) fs).runOn memstreamIn (inp, false) =
      (structCast (atCompile cfg) fs).runOn memstreamIn (inp, false) := by
  have hb' : noBoolVecFields fs = false → False := by rw [hb]; exact fun h => by cases h
  rcases agree_structCast cfg fs hsane hb' inp with ⟨hE, -⟩ | ⟨h1, -⟩
  · exact hE.elim
  · exact h1

example : (structCast (atCompile be64) packet).runOn memstreamIn (packetBytes.take 10, false) =
    (.done (.error ⟨.bufferExhaustion, "data"⟩), ([], true)) :=
  (C63_read_memstream be64 packet (by decide) (by decide) (packetBytes.take 10)).symm

/-- C63, schemas with vectors of `bool` elements: the same, unless the compile-time cast leaves
defined behaviour (which a compiler rejects). -/
theorem C63_read_bool (cfg : Cfg) (fs : List Field) (hsane : saneFields fs = true)
    {S T : InStream} {cS : S.State → List Byte}
    {gS : S.State → Prop} {cT : T.State → List Byte} {gT : T.State → Prop}
    (hS : InContract S cS gS) (hT : InContract T cT gT) (s : S.State) (t : T.State)
    (hs : gS s) (ht : gT t) (hc : cS s = cT t) :
    (∃ w, ((structCast (atCompile cfg) fs).runOn T t).1 = .stuck w) ∨
    ((structCast (atRun cfg) fs).runOn S s).1 = ((structCast (atCompile cfg) fs).runOn T t).1 ∧
    (∀ vs, ((structCast (atRun cfg) fs).runOn S s).1 = .done (.ok vs) →
      gS ((structCast (atRun cfg) fs).runOn S s).2 ∧
      gT ((structCast (atCompile cfg) fs).runOn T t).2 ∧
      cS ((structCast (atRun cfg) fs).runOn S s).2 =
        cT ((structCast (atCompile cfg) fs).runOn T t).2) := by
  rcases (agree_structCast (E := True) cfg fs hsane fun _ => trivial).streams (short_structCast _ _)
    (short_structCast _ _) hS hT s t hs ht hc with ⟨-, h⟩ | ⟨h1, h2⟩
  · exact .inl h
  · refine .inr ⟨h1, fun vs hv => ?_⟩
    have g1 : gS (Rd.runOn S (structCast (atRun cfg) fs) s).2 := healthy hS (short_structCast _ _) s hs hv
    have g2 : gT (Rd.runOn T (structCast (atCompile cfg) fs) t).2 :=
      healthy hT (short_structCast _ _) t ht (h1 ▸ hv)
    exact ⟨g1, g2, h2 g1 g2 vs hv⟩

example := C63_read_bool be64 flags (by decide) byteStreamIn_contract memstreamIn_contract
  ([1, 0, 1], 0, true) ([1, 0, 1], false) ⟨rfl, by decide⟩ rfl rfl

/-- C63, writing. On two healthy streams with the same room, one used at run time and one
at compile time, casts of a struct as C++ types it end alike, and after success both have
received the same bytes. -/
theorem C63_write (cfg : Cfg) (fs : List Field) (vs : List Val) (hc : Everywhere (TypedConsts cfg) fs)
    (hv : Typed cfg fs vs) {S T : OutStream}
    {cS : S.State → List Byte} {gS : S.State → Prop} {rS : S.State → Nat}
    {cT : T.State → List Byte} {gT : T.State → Prop} {rT : T.State → Nat}
    (hS : Capacity S cS gS rS) (hT : Capacity T cT gT rT) (s : S.State) (t : T.State)
    (hs : gS s) (ht : gT t) (hr : rS s = rT t) (hst : cS s = cT t) :
    ((streamCast (atRun cfg) fs vs).runOn S s).1 = ((streamCast (atCompile cfg) fs vs).runOn T t).1 ∧
    (((streamCast (atRun cfg) fs vs).runOn S s).1 = .done (.ok ()) →
      gS ((streamCast (atRun cfg) fs vs).runOn S s).2 ∧
      gT ((streamCast (atCompile cfg) fs vs).runOn T t).2 ∧
      cS ((streamCast (atRun cfg) fs vs).runOn S s).2 =
        cT ((streamCast (atCompile cfg) fs vs).runOn T t).2) := by
  obtain ⟨h1, h2⟩ := (agree_twins cfg fs vs hc hv).streams hS hT s t hs ht hr hst
  exact ⟨h1, fun h => h2 () h⟩

/-- Too little room inside the vector: a stream that takes whole writes at run time, a
`memstream` at compile time. -/
example : ((streamCast (atCompile le64) packet packetVal).runOn memstreamOut (10, [], false)).1 =
    .done (.error ⟨.bufferExhaustion, "data"⟩) :=
  (C63_write le64 packet packetVal (by decide +kernel) (by decide +kernel) wholeOut_capacity
    memstreamOut_capacity (10, [], true) (10, [], false) rfl rfl rfl rfl).1.symm

/-- C63, on one `memstream`: the whole of the stream's state is the same in the end, when it
is too small too; and on a stream that refuses nothing the bytes are, whatever the end. -/
theorem C63_write_memstream (cfg : Cfg) (fs : List Field) (vs : List Val)
    (hc : Everywhere (TypedConsts cfg) fs) (hv : Typed cfg fs vs) :
    (∀ room got, (streamCast (atRun cfg) fs vs).runOn memstreamOut (room, got, false) =
      (streamCast (atCompile cfg) fs vs).runOn memstreamOut (room, got, false)) ∧
    (streamCast (atRun cfg) fs vs).run = (streamCast (atCompile cfg) fs vs).run :=
  ⟨fun room got => (agree_twins cfg fs vs hc hv).memstream room got, by
    rw [Wr.run_eq, (agree_twins cfg fs vs hc hv).out, Wr.run_eq]⟩

example : (streamCast (atCompile le64) packet packetVal).runOn memstreamOut (10, [], false) =
    (.done (.error ⟨.bufferExhaustion, "data"⟩),
      (0, ([0x34, 0x12, 0, 0, 3, 0, 7, 1, 0, 2] : List Byte), true)) :=
  ((C63_write_memstream le64 packet packetVal (by decide +kernel) (by decide +kernel)).1 10 []).symm

/-- C26, the part that holds: on one `memstream` casts at run time and at compile time are the
same in every respect, if no vector has elements made of `bool` and the struct is as C++
types it. Missing: other streams after a failure (`C26_fails_consumed`,
`C26_fails_emitted`), and vectors of `bool` elements (`C26_fails_bool`). -/
theorem C26_memstream_partial (cfg : Cfg) (fs : List Field) (hsane : saneFields fs = true)
    (hb : noBoolVecFields fs = true) (hc : Everywhere (TypedConsts cfg) fs) :
    (∀ inp, (structCast (atRun cfg) fs).runOn memstreamIn (inp, false) =
      (structCast (atCompile cfg) fs).runOn memstreamIn (inp, false)) ∧
    (∀ vs, Typed cfg fs vs → ∀ room got,
      (streamCast (atRun cfg) fs vs).runOn memstreamOut (room, got, false) =
        (streamCast (atCompile cfg) fs vs).runOn memstreamOut (room, got, false)) :=
  ⟨C63_read_memstream cfg fs hsane hb, fun vs hv => (C63_write_memstream cfg fs vs hc hv).1⟩

example := C26_memstream_partial be64 packet (by decide) (by decide) (by decide +kernel)

/-- C26 fails as stated: on the `byte_stream` of the documentation, which consumes nothing when a
read fails, the element-wise path consumes the elements before the end of the input, the bulk
path none. -/
theorem C26_fails_consumed : ∃ (fs : List Field) (inp : List Byte), WellFormed fs ∧
    (structCast (atRun be64) fs).runOn byteStreamIn (inp, 0, true) =
      (.done (.error ⟨.bufferExhaustion, "data"⟩), (inp, 7, false)) ∧
    (structCast (atCompile be64) fs).runOn byteStreamIn (inp, 0, true) =
      (.done (.error ⟨.bufferExhaustion, "data"⟩), (inp, 9, false)) :=
  ⟨packet, packetBytes.take 10, by decide, by rfl, by rfl⟩

/-- C26 fails as stated: on a stream that takes a write as a whole or not at all, the
element-wise path has emitted the elements that fit, the bulk path none. -/
theorem C26_fails_emitted : ∃ (fs : List Field) (vs : List Val), WellFormed fs ∧ Typed le64 fs vs ∧
    (streamCast (atRun le64) fs vs).runOn wholeOut (10, [], true) =
      (.done (.error ⟨.bufferExhaustion, "data"⟩),
        (3, ([0x34, 0x12, 0, 0, 3, 0, 7] : List Byte), false)) ∧
    (streamCast (atCompile le64) fs vs).runOn wholeOut (10, [], true) =
      (.done (.error ⟨.bufferExhaustion, "data"⟩),
        (1, ([0x34, 0x12, 0, 0, 3, 0, 7, 1, 0] : List Byte), false)) :=
  ⟨packet, packetVal, by decide, by decide +kernel, by rfl, by rfl⟩

/-- C26 fails as stated: a vector of `bool` elements whose first element has bytes that are no
`bool`, cut short. At run time the bulk read fails before anything is looked at; at compile
time the first element leaves defined behaviour. -/
theorem C26_fails_bool : ∃ (fs : List Field) (inp : List Byte), WellFormed fs ∧
    (structCast (atRun be64) fs).runOn memstreamIn (inp, false) =
      (.done (.error ⟨.bufferExhaustion, "v"⟩), ([], true)) ∧
    ((structCast (atCompile be64) fs).runOn memstreamIn (inp, false)).1 = .stuck .invalidValue :=
  ⟨flags, [2, 7, 0, 1], by decide, by rfl, by rfl⟩

end S2S.Props
