import Verif.Props.Checks
/-
C23, C39, C58: what is on the stream, field by field.
-/
namespace S2S.Props
open Spec Demo

/-! ## C23 -/

/-- C23. A write that fails on a stream that refuses nothing fails at a field `f` of the
list, and if `f` does not hold records (itself, as an optional or as the held
alternative), the stream has received exactly the fields before `f`. Missing: a field
that holds records; for those the statement is false. -/
theorem C23_clean_partial (cfg : Cfg) (fs : List Field) (vs : List Val) (e : CastError)
    (p : List Byte) (h : (streamCast cfg fs vs).run = (.done (.error e), p)) :
    ∃ pre f post vpre v vpost, fs = pre ++ f :: post ∧ vs = vpre ++ v :: vpost ∧
      vpre.length = pre.length ∧ e.failedAt = f.id ∧
      ((∀ k u, Payload f v k u → k.isFixed = true ∨ ∃ e len b, k = .vec e len b) →
        Puts cfg fs vs pre vpre p) := by
  rw [Wr.run_eq] at h
  have hc := cut_streamCast h
  generalize hid : e.failedAt = id at hc
  cases hc with
  | @before pre f post vpre v vpost q hl h1 =>
    exact ⟨pre, f, post, vpre, v, vpost, rfl, rfl, hl, rfl, fun _ => h1⟩
  | @inside pre f post vpre v vpost q k u r hl h1 h2 h3 =>
    refine ⟨pre, f, post, vpre, v, vpost, rfl, rfl, hl, rfl, fun hleaf => ?_⟩
    rcases hleaf k u (payload_of_selects h2) with hk | ⟨e, len, b, rfl⟩
    · cases h3 <;> cases hk
    · cases h3

/-- A record whose second field is constrained. -/
def recordSchema : List Field :=
  [.plain "a" (.num u8 1) .none,
   .plain "r" (.record [.plain "x" (.num u8 1) .none, .plain "y" (.num u8 1) (.cmp .lt i32 5)]) .none]

example := C23_clean_partial le64 optVecSchema [.int 2, .int 1, .absent] ⟨.validationFailure, "data"⟩ [2, 1]
  (by rfl)

/-- C23 fails for records: the first field of the record that failed is on the
stream. -/
theorem C23_fails_record :
    WellFormed recordSchema ∧ Typed le64 recordSchema [.int 1, .seq [.int 2, .int 9]] ∧
    (streamCast le64 recordSchema [.int 1, .seq [.int 2, .int 9]]).run =
      (.done (.error ⟨.validationFailure, "r"⟩), [1, 2]) :=
  ⟨by decide, by decide +kernel, by rfl⟩

/-! ## C58 -/

/-- C58. A write that fails on a stream that refuses nothing leaves it cut at a field:
the fields before the one named in the error completely, then nothing of it, or, if it
holds records, some whole records and a part of one that is again cut at a field. -/
theorem C58_cut (cfg : Cfg) (fs : List Field) (vs : List Val) (e : CastError)
    (p : List Byte) (h : (streamCast cfg fs vs).run = (.done (.error e), p)) :
    Cut cfg fs vs e.failedAt p :=
  cut_streamCast ((Wr.run_eq _).symm.trans h)

example : Cut le64 recordSchema [.int 1, .seq [.int 2, .int 9]] "r" [1, 2] :=
  C58_cut le64 recordSchema _ ⟨.validationFailure, "r"⟩ _ (by rfl)

/-! ## C39 -/

/-- What a value contributes is determined by the value and its kind: not by where it is. -/
theorem recordsPut_unique {cfg : Cfg} {gs : List Field} {us : List Val} {r r' : List Byte}
    (h : RecordsPut cfg gs us r) (h' : RecordsPut cfg gs us r') : r = r' := by
  induction h generalizing r' with
  | nil => cases h'; rfl
  | cons h1 _ ih =>
    cases h' with
    | cons h2 h3 =>
      rw [h1] at h2
      cases h2
      rw [ih h3]

theorem C39_independent (cfg : Cfg) (k : Kind) (u : Val) (r r' : List Byte)
    (h : Contributes cfg k u r) (h' : Contributes cfg k u r') : r = r' := by
  cases h with
  | leaf hk =>
    cases h' with
    | leaf _ => rfl
    | _ => rcases hk with hk | ⟨_, _, _, hk⟩ <;> cases hk
  | record h1 =>
    cases h' with
    | leaf hk => rcases hk with hk | ⟨_, _, _, hk⟩ <;> cases hk
    | record h2 => rw [h1] at h2; cases h2; rfl
  | array h1 =>
    cases h' with
    | leaf hk => rcases hk with hk | ⟨_, _, _, hk⟩ <;> cases hk
    | array h2 => exact recordsPut_unique h1 h2
  | vector h1 =>
    cases h' with
    | leaf hk => rcases hk with hk | ⟨_, _, _, hk⟩ <;> cases hk
    | vector h2 => exact recordsPut_unique h1 h2

example (r : List Byte) (h : Contributes be64 (.record inner) (.seq [.int (-1), .present (.int 0x0102)]) r) :
    r = [0xff, 1, 2] :=
  C39_independent be64 _ _ r _ h (.record (by rfl))

/-- C39. In a successful write, a field contributes what its payload does (itself, the
value of the optional, the held alternative): a record what `stream_cast` of the inner
list alone emits, an array or vector of records the concatenation of that over its
elements, everything else the encoding of the value; an absent optional nothing. What a
payload contributes does not depend on whether it is a plain field, optional, or an
alternative (`C39_independent`). Plain fields of fixed size the library fills in (slots,
constants) are left to C15 to C19. -/
theorem C39_transparent (cfg : Cfg) (pre post : List Field) (f : Field) (vpre vpost : List Val)
    (v : Val) (hwf : WellFormed (pre ++ f :: post)) (hres : Resolves (pre ++ f :: post))
    (hl : vpre.length = pre.length) (hty : Typed cfg (pre ++ f :: post) (vpre ++ v :: vpost))
    (hf : ∀ id k c, f = .plain id k c → k.isFixed = true →
      isSlot (pre ++ f :: post) id = false ∧ typedConst k c = none) (p : List Byte)
    (h : (streamCast cfg (pre ++ f :: post) (vpre ++ v :: vpost)).run = (.done (.ok ()), p)) :
    ∃ q r s, p = q ++ (r ++ s) ∧
      Puts cfg (pre ++ f :: post) (vpre ++ v :: vpost) pre vpre q ∧
      Puts cfg (pre ++ f :: post) (vpre ++ v :: vpost) post vpost s ∧
      (v = .absent ∧ r = [] ∨ ∃ k u, Payload f v k u ∧ Contributes cfg k u r) := by
  rw [Wr.run_eq] at h
  obtain ⟨q, r, s, rfl, h1, h2, h3⟩ := (emits_split hl).1 h
  refine ⟨q, r, s, rfl, (Wr.run_eq _).trans h1, (Wr.run_eq _).trans h3, ?_⟩
  have h2 := (emits_writeStep.1 h2).1
  rcases selects_of_emits h2 with ⟨_, _, _, -, rfl, -, rfl⟩ | ⟨k, u, hs⟩
  · exact .inl ⟨rfl, rfl⟩
  · have hp := payload_of_selects hs
    refine .inr ⟨k, u, hp, ?_⟩
    have ht : TypedField cfg f v := typed_zip hty (by rw [List.zip_append hl.symm]; simp)
    refine contributes_of_field ?_ ?_ ht hp h2
    · rw [← Bool.not_eq_true]
      intro hc
      obtain ⟨t, w, c, he⟩ := slot_plain hwf.2.1 hres (by simp : f ∈ pre ++ f :: post) hc
      have h4 := (hf f.id (.num t w) c he rfl).1
      rw [show (WCtx.mk _ _).fs = _ from rfl, h4] at hc
      cases hc
    · cases f with
      | plain id k c =>
        rw [Field.isFrozen, frozenVal_eq_typedConst]
        cases hk : k.isFixed with
        | true => rw [(hf id k c rfl hk).2]; rfl
        | false =>
          cases htc : typedConst k c with
          | none => rfl
          | some u => rw [fixed_of_const htc] at hk; cases hk
      | _ => rfl

/-- The packet's union holds a record: its bytes are those of the record alone. -/
example := C39_transparent be64 (packet.take 4) [packet[5]] (packet[4]) (packetVal.take 4) [.int 0xbeef]
  (packetVal[4]) (by decide) (by decide +kernel) rfl (by decide +kernel)
  (by intro _ _ _ h; cases h) packetBytes (by rfl)

example : Contributes be64 (.record inner) (.seq [.int (-1), .present (.int 0x0102)]) [0xff, 1, 2] :=
  .record (by rfl)

end S2S.Props
