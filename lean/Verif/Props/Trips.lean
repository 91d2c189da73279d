import Verif.Props.Versions
import Verif.Props.Counted
import Verif.Props.Guarded
import Verif.Props.Labels
import Verif.Props.Vacant
import Verif.Props.Records
/-
C158: the round trips of C127, C143, C145, C148 and C153, for lists that are not self-consistent
or rewritable as well.
-/
namespace S2S.Props
open Spec Demo Compare

/-! ## C158 -/

/-- C158, constraints on what an optional holds: what was written is read back as what was sent
exactly if that is valid. -/
theorem C158_guarded (cfg : Cfg) (gs : List GField) (hu : Unswitched gs)
    (hwf : WellFormed (gs.map GField.usual)) (hc : Everywhere (TypedConsts cfg) (gs.map GField.usual))
    (vs : List Val) (hv : Typed cfg (gs.map GField.usual) vs) (p : List Byte) :
    (streamCastGuard cfg gs vs).run = (.done (.ok ()), p) ↔
      Kept gs vs ∧ ∃ us, Sent cfg (gs.map GField.usual) vs us ∧ p = wire cfg (gs.map GField.usual) us ∧
        ∀ rest, (structCastGuard cfg gs).run (p ++ rest) = (.done (.ok us), rest) ↔
          Valid cfg (gs.map GField.usual) us := by
  refine (C148_write listOut cfg gs hu vs [] p).trans ⟨fun ⟨h, hk⟩ => ⟨hk, ?_⟩, fun ⟨hk, us, h1, h2, _⟩ => ⟨?_, hk⟩⟩
  · obtain ⟨us, h1, h2, h3⟩ := C116_round_trip_iff cfg _ hwf hc vs hv p h
    refine ⟨us, h1, h2, fun rest => ?_⟩
    rw [C148_read]
    exact h3 rest
  · exact (C115_sends cfg _ hwf hc vs hv p).2 ⟨us, h1, h2⟩

/-- C158: and what was read is written as it was exactly if its constraints hold and its like is
sent. -/
theorem C158_guarded_back (cfg : Cfg) (gs : List GField) (hu : Unswitched gs)
    (hwf : WellFormed (gs.map GField.usual)) (hc : Everywhere (TypedConsts cfg) (gs.map GField.usual))
    (p rest : List Byte) (vs : List Val)
    (h : (structCastGuard cfg gs).run (p ++ rest) = (.done (.ok vs), rest)) :
    (streamCastGuard cfg gs vs).run = (.done (.ok ()), p) ↔
      Kept gs vs ∧ ∃ us, Sent cfg (gs.map GField.usual) vs us ∧
        wire cfg (gs.map GField.usual) us = wire cfg (gs.map GField.usual) vs := by
  rw [C148_read] at h
  rw [← C117_rewrite_iff cfg _ hwf hc p rest vs h]
  exact (C148_write listOut cfg gs hu vs [] p).trans and_comm

/-- C158, arrays of records that are given a length: what was written is read back as what was
sent exactly if that is valid, for the list without the lengths. -/
theorem C158_counted (cfg : Cfg) (cs : List CtField) (hwf : WellFormed (asVectors cs))
    (hc : Everywhere (TypedConsts cfg) (asVectors cs)) (vs : List Val)
    (hf : Full cs vs) (hv : Typed cfg (asVectors cs) vs) (p : List Byte) :
    (streamCastCt cfg cs vs).run = (.done (.ok ()), p) ↔
      ∃ us, Sent cfg (asVectors cs) vs us ∧ p = wire cfg (asVectors cs) us ∧
        ∀ rest, (structCastCt cfg cs).run (p ++ rest) = (.done (.ok us), rest) ↔
          Valid cfg (asArrays cs) us := by
  rw [C153_write cfg cs vs hf, C115_sends cfg _ hwf hc vs hv p]
  refine ⟨fun ⟨us, h1, h2⟩ => ⟨us, h1, h2, fun rest => ?_⟩, fun ⟨us, h1, h2, _⟩ => ⟨us, h1, h2⟩⟩
  rw [C153_read, read_iff cfg _ (wellFormed_counted hwf), h2]
  refine and_iff_left ?_
  unfold wire
  rw [wireFields_counted]

/-- C158: and what was read is written as it was exactly if its like is sent, for the list with
vectors. -/
theorem C158_counted_back (cfg : Cfg) (cs : List CtField) (hwf : WellFormed (asVectors cs))
    (hc : Everywhere (TypedConsts cfg) (asVectors cs)) (p rest : List Byte) (vs : List Val)
    (hv : Typed cfg (asVectors cs) vs)
    (h : (structCastCt cfg cs).run (p ++ rest) = (.done (.ok vs), rest)) :
    (streamCastCt cfg cs vs).run = (.done (.ok ()), p) ↔
      ∃ us, Sent cfg (asVectors cs) vs us ∧ wire cfg (asVectors cs) us = wire cfg (asVectors cs) vs := by
  rw [C153_read, read_iff cfg _ (wellFormed_counted hwf)] at h
  have hf := full_of_typed cfg cs vs (typedFields_of_fits cfg _ vs h.1.1)
  have hp : p = wire cfg (asVectors cs) vs := by
    have := List.append_cancel_right h.2
    rw [this]
    unfold wire
    rw [wireFields_counted]
  rw [C153_write cfg cs vs hf, C115_sends cfg _ hwf hc vs hv p, hp]
  exact ⟨fun ⟨us, h1, h2⟩ => ⟨us, h1, h2.symm⟩, fun ⟨us, h1, h2⟩ => ⟨us, h1, h2.symm⟩⟩

theorem wire_labels (cfg : Cfg) (R : Rounding) (pre post : List Field) (id sid : String) (t : ScalarTy)
    (ls : List Label) (as : List (ScalarTy × Int)) (alts : List Alt) (c : Constraint) (xs : List Val) :
    wire cfg (pre ++ writeUnion id sid t as alts c :: post) xs =
      wire cfg (pre ++ readUnion R id sid t ls alts c :: post) xs := by
  unfold wire
  induction pre generalizing xs with
  | nil =>
    cases xs with
    | nil => rfl
    | cons x xs => cases x <;> rfl
  | cons f pre ih => cases xs <;> simp only [List.cons_append, wireFields, ih]

/-- C158, unions over labels that are not integers: what was written is read back as what was
sent exactly if that is valid for the reader. -/
theorem C158_labels (cfg : Cfg) (R : Rounding) (pre post : List Field) (id sid : String)
    (t : ScalarTy) (ls : List Label) (as : List (ScalarTy × Int)) (hst : storedLabels cfg ls = some as)
    (alts : List Alt) (c : Constraint)
    (hwf : WellFormed (pre ++ writeUnion id sid t as alts c :: post))
    (hc : Everywhere (TypedConsts cfg) (pre ++ writeUnion id sid t as alts c :: post)) (vs : List Val)
    (hv : Typed cfg (pre ++ writeUnion id sid t as alts c :: post) vs) (p : List Byte) :
    (streamCast cfg (pre ++ writeUnion id sid t as alts c :: post) vs).run = (.done (.ok ()), p) ↔
      ∃ us, Sent cfg (pre ++ writeUnion id sid t as alts c :: post) vs us ∧
        p = wire cfg (pre ++ writeUnion id sid t as alts c :: post) us ∧
        ∀ rest, (structCast cfg (pre ++ readUnion R id sid t ls alts c :: post)).run (p ++ rest) =
          (.done (.ok us), rest) ↔ Valid cfg (pre ++ readUnion R id sid t ls alts c :: post) us := by
  rw [C115_sends cfg _ hwf hc vs hv p]
  refine ⟨fun ⟨us, h1, h2⟩ => ⟨us, h1, h2, fun rest => ?_⟩, fun ⟨us, h1, h2, _⟩ => ⟨us, h1, h2⟩⟩
  rw [read_iff cfg _ (wf_readUnion hwf (storedLabels_some hst).1.symm), h2]
  exact and_iff_left (by rw [wire_labels cfg R pre post id sid t ls])

/-- C158: where the writer would read it back, the reader does exactly if the first label that
compares equal to the stored one is the one it was stored for. -/
theorem C158_labels_pick (cfg : Cfg) (R : Rounding) (pre post : List Field) (id sid : String)
    (t : ScalarTy) (w : Nat) (cs : Constraint) (hs : .plain sid (.num t w) cs ∈ pre)
    (ls : List Label) (as : List (ScalarTy × Int)) (hst : storedLabels cfg ls = some as)
    (hr : ∀ a ∈ as, t.InRange a.2) (alts : List Alt) (c : Constraint)
    (hwf : WellFormed (pre ++ writeUnion id sid t as alts c :: post))
    (us ws : List Val) (i : Nat) (u : Val) (hl : us.length = pre.length)
    (hv : Valid cfg (pre ++ writeUnion id sid t as alts c :: post) (us ++ .var i u :: ws))
    (a : ScalarTy × Int) (ha : as[i]? = some a) :
    Valid cfg (pre ++ readUnion R id sid t ls alts c :: post) (us ++ .var i u :: ws) ↔
      Picks R t a.2 ls i := by
  have hwf' : WellFormed (pre ++ readUnion R id sid t ls alts c :: post) :=
    wf_readUnion hwf (storedLabels_some hst).1.symm
  obtain ⟨a', ha', hx⟩ := slot_is_label hs hwf hr hl hv
  rw [ha] at ha'
  cases ha'
  constructor
  · intro h1
    have h2 := (valid_split hwf' hl h1).2.2.2
    simp only [readUnion, ShapedField, Deducer.eval] at h2
    exact (ladder_picks hx ls i).1 h2.1
  · intro h
    refine valid_deducer hl hwf hwf' hv ?_
    rw [Deducer.eval]
    exact (ladder_picks hx ls i).2 h

/-! ### Elements without elements -/

theorem vacantStep_emits {cfg : Cfg} (hf : cfg.foreign = true) {ctx : WCtx} {h : VField} {u : Val}
    (hs : saneField h.asBytes = true) (hu : uniqueField h.asBytes = true) (hr : upToSelfField h.asBytes = true)
    (he : EveryField (TypedConsts cfg) h.asBytes) (hin : Given cfg ctx.fs ctx.vs)
    (hm : h.asBytes ∈ ctx.fs) (hv : TypedField cfg h.asBytes u) (p : List Byte) :
    (vacantStep cfg ctx h u).Emits p () ↔
      ∃ x, SentField cfg ctx.fs ctx.vs h.asBytes u x ∧ p = VField.adds cfg.wire h x := by
  have hsent := fun q => sent_field cfg h.asBytes hs hu hr he ctx u q hin hm hv
  constructor
  · intro h1
    cases h with
    | std f => exact (hsent p).1 h1
    | array id n size =>
      cases u <;> simp only [VField.asBytes, TypedField, TypedKind] at hv
      rename_i vs
      unfold vacantStep WrE.tag at h1
      rw [WrE.emits_mapErr] at h1
      simp only [VField.asBytes, Field.isFrozen, frozenVal, Field.id, Field.constraint, checked_free, ite_self,
        writeVacant] at h1
      split at h1
      · simp [WrE.emits_stuck] at h1
      · rename_i hb
        simp only [Bool.or_eq_true, decide_eq_true_eq, not_or, Bool.not_eq_true] at hb
        simp only [writeStorage, hf, if_true, all_nothing, WrE.emits_ok] at h1
        refine ⟨.seq vs, ?_, by simp [VField.adds, h1.1]⟩
        have hslot : isSlot ctx.fs id = false := (isDerived_eq ..).symm.trans hb.1.1
        have hci := conditional_iff (fs := ctx.fs) (id := id)
        simp only [hslot, hb.1.2, Bool.false_eq_true, or_false, false_iff, not_exists, not_and] at hci
        simp only [VField.asBytes, SentField, hslot, Bool.false_eq_true, if_false, typedConst, SentKind,
          true_and]
        exact ⟨by simp [Holds, Constraint.check], fun f hf => hci f hf⟩
    | vector id size len bound =>
      cases u <;> simp only [VField.asBytes, TypedField, TypedKind] at hv
      rename_i vs
      unfold vacantStep WrE.tag at h1
      rw [WrE.emits_mapErr] at h1
      simp only [VField.asBytes, Field.isFrozen, frozenVal, Field.id, Field.constraint, checked_free, ite_self,
        writeVacant, writeStorage, hf, if_true, all_nothing, emits_computed, WrE.emits_ok] at h1
      refine ⟨.seq vs, ?_, by simp [VField.adds, h1.2.1]⟩
      simp only [VField.asBytes, SentField, typedConst, SentKind, true_and]
      have : ∃ us, Val.seq vs = .seq us ∧ ∀ g, len = .computed g → len.eval cfg (envOf ctx.fs ctx.vs) = .ok us.length :=
        ⟨vs, rfl, h1.1⟩
      split
      · exact this
      · exact ⟨by simp [Holds, Constraint.check], this⟩
  · rintro ⟨x, h1, rfl⟩
    have h2 := (hsent _).2 ⟨x, h1, rfl⟩
    cases h with
    | std f => exact h2
    | array id n size =>
      have hx : x = u := by
        simp only [VField.asBytes, SentField, typedConst, SentKind] at h1
        split at h1
        · exact h1.1
        · exact h1.2.1
      subst hx
      exact emits_vacantStep hf h2
    | vector id size len bound =>
      have hx : x = u := by
        simp only [VField.asBytes, SentField, typedConst, SentKind] at h1
        split at h1
        · exact h1.1
        · exact h1.2.1
      subst hx
      exact emits_vacantStep hf h2

theorem sent_vacants {cfg : Cfg} (hfor : cfg.foreign = true) : ∀ (hs : List VField),
    saneFields (hs.map VField.asBytes) = true →
    ∀ seen, uniqueFields seen (hs.map VField.asBytes) = true →
    ∀ seen', upToSelf seen' (hs.map VField.asBytes) = true →
    EveryFields (TypedConsts cfg) (hs.map VField.asBytes) → ∀ ctx us p, Given cfg ctx.fs ctx.vs →
    (∀ f ∈ hs.map VField.asBytes, f ∈ ctx.fs) → TypedFields cfg (hs.map VField.asBytes) us →
    ((writeVacants cfg ctx hs us).Emits p () ↔
      ∃ xs, SentFields cfg ctx.fs ctx.vs (hs.map VField.asBytes) us xs ∧ p = usualBytes cfg.wire hs xs)
  | [], _, _, _, _, _, _, _, us, p, _, _, hv => by
      cases us with
      | cons v vs => simp [TypedFields] at hv
      | nil =>
        simp only [writeVacants, WrE.emits_ok, List.map_nil, SentFields]
        constructor
        · rintro ⟨rfl, -⟩; exact ⟨[], ⟨trivial, rfl⟩, rfl⟩
        · rintro ⟨_, ⟨-, rfl⟩, rfl⟩; exact ⟨rfl, trivial⟩
  | _ :: _, _, _, _, _, _, _, _, [], _, _, _, hv => by simp [TypedFields] at hv
  | h :: hs, hsane, seen, hu, seen', hr, he, ctx, v :: vs, p, hin, hm, hv => by
      simp only [List.map_cons, saneFields, Bool.and_eq_true] at hsane
      simp only [List.map_cons, uniqueFields, Bool.and_eq_true] at hu
      simp only [List.map_cons, upToSelf, Bool.and_eq_true] at hr
      rw [List.map_cons, EveryFields] at he
      rw [List.map_cons, TypedFields] at hv
      have h1 := fun p => vacantStep_emits hfor hsane.1 hu.1.2 hr.1.2 he.1 hin (hm _ (by simp)) hv.1 p
      have h2 := fun p => sent_vacants hfor hs hsane.2 _ hu.2 _ hr.2 he.2 ctx vs p hin
        (fun g hg => hm g (by rw [List.map_cons]; exact List.mem_cons_of_mem _ hg)) hv.2
      have hadd : ∀ x xs, VField.adds cfg.wire h x ++ usualBytes cfg.wire hs xs =
          usualBytes cfg.wire (h :: hs) (x :: xs) := by
        intro x xs
        cases h <;> simp [usualBytes, VField.adds]
      show ((vacantStep cfg ctx h v).andThen fun _ => writeVacants cfg ctx hs vs).Emits p () ↔ _
      rw [WrE.emits_andThen]
      simp only [List.map_cons, SentFields]
      constructor
      · rintro ⟨_, q, r, rfl, ha, hb⟩
        obtain ⟨u, hc, rfl⟩ := (h1 q).1 ha
        obtain ⟨us, hd, rfl⟩ := (h2 r).1 hb
        exact ⟨_, ⟨v, vs, u, us, rfl, rfl, hc, hd⟩, hadd u us⟩
      · rintro ⟨_, ⟨v', vs', u, us, h0, rfl, ha, hb⟩, rfl⟩
        cases h0
        exact ⟨(), _, _, (hadd u us).symm, (h1 _).2 ⟨u, ha, rfl⟩, (h2 _).2 ⟨us, hb, rfl⟩⟩

/-- C158, elements without elements, in foreign order: what goes over the wire are the bytes of the
other fields of what is sent. -/
theorem C158_vacant_foreign (cfg : Cfg) (hf : cfg.host ≠ cfg.wire) (hs : List VField)
    (hwf : WellFormed (hs.map VField.asBytes)) (hc : Everywhere (TypedConsts cfg) (hs.map VField.asBytes))
    (us : List Val) (hv : Typed cfg (hs.map VField.asBytes) us) (p : List Byte) :
    (streamCastVacant cfg hs us).run = (.done (.ok ()), p) ↔
      ∃ xs, Sent cfg (hs.map VField.asBytes) us xs ∧ p = usualBytes cfg.wire hs xs := by
  rw [Wr.run_eq]
  have ha := hwf.acceptable
  exact sent_vacants (by simp [Cfg.foreign, hf]) hs ha.1 [] ha.2.1 [] ha.2.2 hc.2
    ⟨hs.map VField.asBytes, us⟩ us p ⟨ha, hc.1, hv⟩ (fun _ h => h) hv

theorem visible_typed (cfg : Cfg) (o : Endian) : ∀ (hs : List VField) (us us' : List Val),
    TypedFields cfg (hs.map VField.asBytes) us → TypedFields cfg (hs.map VField.asBytes) us' →
    visible hs us = visible hs us' →
    usualBytes o hs us = usualBytes o hs us' ∧ weights hs us = weights hs us'
  | [], [], [], _, _, _ => ⟨rfl, rfl⟩
  | [], _ :: _, _, hf, _, _ => by simp [TypedFields] at hf
  | [], [], _ :: _, _, hf, _ => by simp [TypedFields] at hf
  | _ :: _, [], _, hf, _, _ => by simp [TypedFields] at hf
  | _ :: _, _ :: _, [], _, hf, _ => by simp [TypedFields] at hf
  | h :: hs, u :: us, u' :: us', hf, hf', he => by
      rw [List.map_cons, TypedFields] at hf hf'
      have ih := visible_typed cfg o hs us us' hf.2 hf'.2
      cases h with
      | std f =>
        simp only [visible, List.cons.injEq] at he
        obtain ⟨rfl, he⟩ := he
        simp only [usualBytes, weights, VField.weight, ih he, and_self]
      | array id n size =>
        cases u <;> simp only [VField.asBytes, TypedField, TypedKind, false_and] at hf
        cases u' <;> simp only [VField.asBytes, TypedField, TypedKind, false_and] at hf'
        simp only [visible, List.cons.injEq] at he
        simp only [usualBytes, weights, VField.weight, ih he.2, and_self]
      | vector id size len bound =>
        cases u <;> simp only [VField.asBytes, TypedField, TypedKind, false_and] at hf
        cases u' <;> simp only [VField.asBytes, TypedField, TypedKind, false_and] at hf'
        simp only [visible, List.cons.injEq, Val.seq.injEq] at he
        have hl := congrArg List.length he.1
        simp only [List.length_map] at hl
        simp only [usualBytes, weights, VField.weight, ih he.2, hl, and_self]

/-- C158: which is not read as what was sent if there is such an element. -/
theorem C158_vacant_no_return (cfg : Cfg) (hcs : cfg.constexprStream = false) (hf : cfg.host ≠ cfg.wire)
    (hs : List VField) (hwf : WellFormed (hs.map VField.asBytes))
    (hc : Everywhere (TypedConsts cfg) (hs.map VField.asBytes)) (us : List Val)
    (hv : Typed cfg (hs.map VField.asBytes) us) (p : List Byte)
    (h : (streamCastVacant cfg hs us).run = (.done (.ok ()), p)) :
    ∃ xs, Sent cfg (hs.map VField.asBytes) us xs ∧ p = usualBytes cfg.wire hs xs ∧
      (0 < weights hs xs → ∀ us' rest, (structCastVacant cfg hs).run p = (.done (.ok us'), rest) →
        visible hs us' ≠ visible hs xs) := by
  obtain ⟨xs, h1, rfl⟩ := (C158_vacant_foreign cfg hf hs hwf hc us hv p).1 h
  refine ⟨xs, h1, rfl, fun hw us' rest hr he => ?_⟩
  rw [C145_read cfg hcs, read_iff cfg _ hwf] at hr
  obtain ⟨hv', hr⟩ := hr
  have h2 := wire_weight cfg cfg.wire hs us' hv'.1
  have h3 := visible_typed cfg cfg.wire hs us' xs (typedFields_of_fits cfg _ _ hv'.1) (sent_typed hc hv h1) he
  have h4 := congrArg List.length hr
  rw [List.length_append, wire, h2, h3.1, h3.2] at h4
  omega

/-- C158, in host order: read back as what was sent exactly if that is valid. -/
theorem C158_vacant_host (cfg : Cfg) (hcs : cfg.constexprStream = false) (hf : cfg.host = cfg.wire)
    (hs : List VField) (hwf : WellFormed (hs.map VField.asBytes))
    (hc : Everywhere (TypedConsts cfg) (hs.map VField.asBytes)) (us : List Val)
    (hv : Typed cfg (hs.map VField.asBytes) us) (p : List Byte) :
    (streamCastVacant cfg hs us).run = (.done (.ok ()), p) ↔
      ∃ xs, Sent cfg (hs.map VField.asBytes) us xs ∧ p = wire cfg (hs.map VField.asBytes) xs ∧
        ∀ rest, (structCastVacant cfg hs).run (p ++ rest) = (.done (.ok xs), rest) ↔
          Valid cfg (hs.map VField.asBytes) xs := by
  rw [C145_write_host cfg hcs hf hs us hv, C115_sends cfg _ hwf hc us hv p]
  refine ⟨fun ⟨xs, h1, h2⟩ => ⟨xs, h1, h2, fun rest => ?_⟩, fun ⟨xs, h1, h2, _⟩ => ⟨xs, h1, h2⟩⟩
  rw [C145_read cfg hcs, read_iff cfg _ hwf, h2]
  exact and_iff_left rfl

/-! ### A container of records -/

theorem sent_append {cfg : Cfg} {all : List Field} {vals : List Val} : ∀ {fs gs : List Field} {us ws xs ys : List Val},
    us.length = fs.length → xs.length = fs.length →
    SentFields cfg all vals (fs ++ gs) (us ++ ws) (xs ++ ys) →
    SentFields cfg all vals fs us xs ∧ SentFields cfg all vals gs ws ys
  | [], gs, us, ws, xs, ys, h1, h2, h => by
      obtain rfl := List.length_eq_zero_iff.1 h1
      obtain rfl := List.length_eq_zero_iff.1 h2
      exact ⟨by simp [SentFields], h⟩
  | f :: fs, gs, [], ws, xs, ys, h1, h2, h => by simp at h1
  | f :: fs, gs, _ :: _, ws, [], ys, h1, h2, h => by simp at h2
  | f :: fs, gs, u :: us, ws, x :: xs, ys, h1, h2, h => by
      simp only [List.cons_append, SentFields] at h
      obtain ⟨v, vs', x', xs', e1, e2, h3, h4⟩ := h
      cases e1
      cases e2
      have := sent_append (by simpa using h1) (by simpa using h2) h4
      exact ⟨by rw [SentFields]; exact ⟨_, _, _, _, rfl, rfl, h3, this.1⟩, this.2⟩

theorem oneByOne_records {R : List Val → List Val → Prop} : ∀ {wss yss : List (List Val)},
    OneByOne R (wss.map .seq) (yss.map .seq) ↔
      wss.length = yss.length ∧ ∀ q ∈ wss.zip yss, R q.1 q.2
  | [], yss => by cases yss <;> simp [OneByOne]
  | w :: wss, [] => by simp [OneByOne]
  | w :: wss, y :: yss => by
      simp only [List.map_cons, OneByOne, List.cons.injEq, Val.seq.injEq, List.length_cons,
        Nat.add_right_cancel_iff, List.zip_cons_cons, List.mem_cons, forall_eq_or_imp]
      constructor
      · rintro ⟨_, _, _, rfl, ⟨rfl, rfl⟩, h1, h2⟩
        have := oneByOne_records.1 h2
        exact ⟨this.1, h1, this.2⟩
      · rintro ⟨h1, h2, h3⟩
        exact ⟨_, _, _, rfl, ⟨rfl, rfl⟩, h2, oneByOne_records.2 ⟨h1, h3⟩⟩

/-- C158, a container of records: each record in it is sent as it is sent by a cast of its own. -/
theorem C158_records_sent (cfg : Cfg) (hdr : List Field) (id : String) (c : Several) (fs : List Field)
    (us xs : List Val) (wss yss : List (List Val)) (hl : us.length = hdr.length)
    (hx : xs.length = hdr.length)
    (h : Sent cfg (followed hdr id c fs) (us ++ [.seq (wss.map .seq)]) (xs ++ [.seq (yss.map .seq)])) :
    wss.length = yss.length ∧ ∀ q ∈ wss.zip yss, Sent cfg fs q.1 q.2 := by
  have h1 := (sent_append hl hx h).2
  simp only [SentFields] at h1
  obtain ⟨v, vs', u, us', e1, e2, h1, -⟩ := h1
  cases e1
  cases e2
  have h2 : SentKind cfg (followed hdr id c fs) (us ++ [.seq (wss.map .seq)]) id .none (c.kind fs)
      (.seq (wss.map .seq)) (.seq (yss.map .seq)) := by
    simp only [SentField] at h1
    split at h1
    · exact h1
    · split at h1
      · rename_i hk
        cases c <;> simp [Several.kind, typedConst] at hk
      · exact h1.2
  apply oneByOne_records.1
  cases c <;> simp only [Several.kind, SentKind] at h2 <;> obtain ⟨_, _, e1, e2, h3⟩ := h2 <;> cases e1 <;> cases e2
  · exact h3.2
  · exact h3.2

theorem writeMany_sent (cfg : Cfg) (fs : List Field) (hwf : WellFormed fs)
    (hc : Everywhere (TypedConsts cfg) fs) : ∀ (wss yss : List (List Val)), wss.length = yss.length →
    (∀ q ∈ wss.zip yss, Typed cfg fs q.1 ∧ Sent cfg fs q.1 q.2) → ∀ before : List Byte,
    writeMany cfg listOut (wss.map (fs, ·)) before =
      (.done (.ok ()), before ++ (yss.map (wire cfg fs)).flatten)
  | [], [], _, _, before => by simp [writeMany]; rfl
  | [], _ :: _, hl, _, _ => by simp at hl
  | _ :: _, [], hl, _, _ => by simp at hl
  | w :: wss, y :: yss, hl, h, before => by
      have h0 := h (w, y) (by simp)
      have h1 : (streamCast cfg fs w).out = (.done (.ok ()), wire cfg fs y) := by
        rw [← Wr.run_eq]
        exact (C115_sends cfg fs hwf hc w h0.1 _).2 ⟨y, h0.2, rfl⟩
      simp only [List.map_cons, writeMany]
      rw [Wr.runOn_listOut, h1]
      simp only
      refine (writeMany_sent cfg fs hwf hc wss yss (by simpa using hl)
        (fun q hq => h q (by simp [hq])) _).trans ?_
      simp
      rfl

/-- C158: so if the cast of the header sends as its fields what the one cast sends, the two ways
of writing write the same, and both ways of reading read what was sent exactly if it is valid. -/
theorem C158_records (cfg : Cfg) (hdr : List Field) (id : String) (c : Several) (fs : List Field)
    (hwf : WellFormed (followed hdr id c fs)) (hc : Everywhere (TypedConsts cfg) (followed hdr id c fs))
    (hwr : WellFormed fs) (hcr : Everywhere (TypedConsts cfg) fs)
    (hch : Everywhere (TypedConsts cfg) hdr)
    (us xs : List Val) (wss yss : List (List Val)) (hu : Typed cfg hdr us) (hw : ∀ w ∈ wss, Typed cfg fs w)
    (hv : Typed cfg (followed hdr id c fs) (us ++ [.seq (wss.map .seq)]))
    (hx : xs.length = hdr.length)
    (h : Sent cfg (followed hdr id c fs) (us ++ [.seq (wss.map .seq)]) (xs ++ [.seq (yss.map .seq)]))
    (hh : Sent cfg hdr us xs) :
    ∃ p, (streamCast cfg (followed hdr id c fs) (us ++ [.seq (wss.map .seq)])).run = (.done (.ok ()), p) ∧
      writeMany cfg listOut ((hdr, us) :: wss.map (fs, ·)) ([] : List Byte) = (.done (.ok ()), p) ∧
      ∀ rest, (structCast cfg (followed hdr id c fs)).run (p ++ rest) =
        (.done (.ok (xs ++ [.seq (yss.map .seq)])), rest) ↔
          Valid cfg (followed hdr id c fs) (xs ++ [.seq (yss.map .seq)]) := by
  have hwh : WellFormed hdr := wf_prefix hwf
  have he := wire_followed cfg hdr id c fs xs yss hx
  obtain ⟨hl, hs⟩ := C158_records_sent cfg hdr id c fs us xs wss yss (typed_length hu).symm hx h
  refine ⟨wire cfg (followed hdr id c fs) (xs ++ [.seq (yss.map .seq)]),
    (C115_sends cfg _ hwf hc _ hv _).2 ⟨_, h, rfl⟩, ?_, fun rest => ?_⟩
  · have h1 : (streamCast cfg hdr us).out = (.done (.ok ()), wire cfg hdr xs) := by
      rw [← Wr.run_eq]
      exact (C115_sends cfg hdr hwh hch us hu _).2 ⟨xs, hh, rfl⟩
    simp only [writeMany]
    rw [Wr.runOn_listOut, h1, he]
    exact writeMany_sent cfg fs hwr hcr wss yss hl
      (fun q hq => ⟨hw q.1 (List.of_mem_zip hq).1, hs q hq⟩) _
  · rw [read_iff cfg _ hwf]
    exact and_iff_left rfl

/-! ### Without self-consistency -/

/-- A tag of one byte in a u16. -/
def narrowTag (f : Field) : List Field := [.plain "tag" (.num u16 1) .none, f]

/-- C127 says that what was written is read back if the label of the alternative is whole. Not if
the tag is narrower than its type, in big endian. -/
theorem C127_fails_narrow :
    storedLabels be64 [.float 8 0x4000000000000000] = some [(.int 8 false, 2)] ∧
    (streamCast be64 (narrowTag (writeUnion "body" "tag" u16 [(.int 8 false, 2)] [.mk (.num u8 1) .none] .none))
      [.int 0, .var 0 (.int 5)]).run = (.done (.ok ()), [0, 5]) ∧
    (structCast be64 (narrowTag (readUnion ieee "body" "tag" u16 [.float 8 0x4000000000000000]
      [.mk (.num u8 1) .none] .none))).run [0, 5] =
      (.done (.error ⟨.typeDeductionFailure, "body"⟩), [5]) := by
  refine ⟨by decide +kernel, by decide +kernel, by decide +kernel⟩

/-- C143 says that one cast and the casts one by one write the same. Not if the header has the
number of the records in fewer bytes than its type, in big endian: 256 records are read from
the one byte 1, and the one cast does not write them. -/
theorem C143_fails_narrow :
    (structCast be64 (followed [.plain "n" (.num u16 1) .none] "pts"
      (.vector (.fromField "n") none 1) [.plain "x" (.num u8 1) .none])).run (1 :: List.replicate 256 7) =
      (.done (.ok ([.int 256] ++ [.seq ((List.replicate 256 [.int 7]).map .seq)])), []) ∧
    (streamCast be64 (followed [.plain "n" (.num u16 1) .none] "pts"
      (.vector (.fromField "n") none 1) [.plain "x" (.num u8 1) .none])
      ([.int 256] ++ [.seq ((List.replicate 256 [.int 7]).map .seq)])).run =
      (.done (.error ⟨.validationFailure, "n"⟩), []) ∧
    writeMany be64 listOut (([.plain "n" (.num u16 1) .none], [.int 256]) ::
      (List.replicate 256 [.int 7]).map ([.plain "x" (.num u8 1) .none], ·)) ([] : List Byte) =
      (.done (.ok ()), 1 :: List.replicate 256 7) :=
  by
  refine ⟨by decide +kernel, by decide +kernel, ?_⟩
  have h1 : (streamCast be64 [.plain "n" (.num u16 1) .none] [.int 256]).out = (.done (.ok ()), [1]) := by rfl
  simp only [writeMany]
  rw [Wr.runOn_listOut, h1]
  exact (writeMany_append be64 [.plain "x" (.num u8 1) .none] (rewritable_of_checked (by decide +kernel))
    (List.replicate 256 [.int 7]) (by
      intro w hw
      rw [(List.mem_replicate.1 hw).2]
      decide +kernel) _).trans (congrArg (Prod.mk _) (by decide +kernel))

/-- A vector of elements without elements, with its number in one byte of a u16. -/
def narrowGaps : List VField :=
  [.std (.plain "n" (.num u16 1) .none), .vector "e" 1 (.fromField "n") none]

/-- C145 says that what is written in the order of the host is read back. Not this. -/
theorem C145_fails_narrow :
    (streamCastVacant { be64 with host := .big } narrowGaps [.int 0, .seq [.seq [.int 9]]]).run =
      (.done (.ok ()), [0, 9]) ∧
    (structCastVacant { be64 with host := .big } narrowGaps).run [0, 9] =
      (.done (.ok [.int 0, .seq []]), [9]) :=
  ⟨by rfl, by rfl⟩

/-- The same length before an optional with a constraint. -/
def narrowPercent : List GField :=
  [.std (.plain "len" (.num u16 1) .none), .std (.plain "data" (.vec (.scalar u8) (.fromField "len") none) .none),
   .guarded "pct" (.num u8 1) (.cmp .le u8 100) ⟨["len"], fun _ => true⟩]

/-- C148 says that what was written is read back. Not this. -/
theorem C148_fails_narrow :
    (streamCastGuard be64 narrowPercent [.int 0, .seq [.int 9], .present (.int 40)]).run =
      (.done (.ok ()), [0, 9, 40]) ∧
    (structCastGuard be64 narrowPercent).run [0, 9, 40] =
      (.done (.ok [.int 0, .seq [], .present (.int 9)]), [40]) :=
  ⟨by rfl, by rfl⟩

/-- Two points whose number is in one byte of a u16. -/
def narrowPoints : List CtField :=
  [.plain "n" (.leaf (.num u16 1)) .none,
   .plain "points" (.arrRec [.plain "x" (.leaf (.num u8 1)) .none] 2 (some (.fromField "n"))) .none]

/-- C153 says that what was written says how many records there are. Not this. -/
theorem C153_fails_narrow :
    (streamCastCt be64 narrowPoints [.int 0, .seq [.seq [.int 7], .seq [.int 8]]]).run =
      (.done (.ok ()), [0, 7, 8]) ∧
    (structCastCt be64 narrowPoints).run [0, 7, 8] =
      (.done (.ok [.int 0, .seq [.seq [.int 7], .seq [.int 8]]]), []) :=
  ⟨by rfl, by rfl⟩

/-! ### Examples -/

/-- What is sent of the two points says that they are two, and is not valid. -/
example : ∃ us, Sent be64 (asVectors narrowPoints) [.int 0, .seq [.seq [.int 7], .seq [.int 8]]] us ∧
    [0, 7, 8] = wire be64 (asVectors narrowPoints) us ∧
    (Valid be64 (asArrays narrowPoints) us → us = [.int 0, .seq [.seq [.int 7], .seq [.int 8]]]) := by
  obtain ⟨us, h1, h2, h3⟩ := (C158_counted be64 narrowPoints (by decide) (by decide +kernel) _
    (C153_full be64 narrowPoints _ (by decide +kernel)) (by decide +kernel) [0, 7, 8]).1 C153_fails_narrow.1
  refine ⟨us, h1, h2, fun hv => ?_⟩
  have := (h3 []).2 hv
  rw [List.append_nil, C153_fails_narrow.2] at this
  cases this
  rfl

/-- Read from bytes that say so, two points are written as they were read exactly if their like
is sent. -/
example : (streamCastCt be64 narrowPoints [.int 512, .seq [.seq [.int 7], .seq [.int 8]]]).run =
    (.done (.ok ()), [2, 7, 8]) ↔
    ∃ us, Sent be64 (asVectors narrowPoints) [.int 512, .seq [.seq [.int 7], .seq [.int 8]]] us ∧
      wire be64 (asVectors narrowPoints) us =
        wire be64 (asVectors narrowPoints) [.int 512, .seq [.seq [.int 7], .seq [.int 8]]] :=
  C158_counted_back be64 narrowPoints (by decide) (by decide +kernel) [2, 7, 8] [] _ (by decide +kernel) (by rfl)

theorem narrowPercent_unswitched : Unswitched narrowPercent := by
  intro id k c p h
  simp only [narrowPercent, List.mem_cons, List.not_mem_nil, or_false, reduceCtorEq, false_or, GField.guarded.injEq] at h
  obtain ⟨rfl, -⟩ := h
  decide

example : ∃ us, Sent be64 (narrowPercent.map GField.usual) [.int 0, .seq [.int 9], .present (.int 40)] us ∧
    ¬ Valid be64 (narrowPercent.map GField.usual) us := by
  obtain ⟨-, us, h1, h2, h3⟩ := (C158_guarded be64 narrowPercent narrowPercent_unswitched (by decide)
    (by decide +kernel) [.int 0, .seq [.int 9], .present (.int 40)] (by decide +kernel) [0, 9, 40]).1
    C148_fails_narrow.1
  refine ⟨us, h1, fun hv => ?_⟩
  have := (h3 []).2 hv
  rw [List.append_nil, C148_fails_narrow.2] at this
  cases this

/-- Two hundred percent are read and not written back. -/
example : ¬ Kept percent [.int 1, .present (.int 200)] ∨
    ¬ ∃ us, Sent be64 (percent.map GField.usual) [.int 1, .present (.int 200)] us ∧
      wire be64 (percent.map GField.usual) us = wire be64 (percent.map GField.usual) [.int 1, .present (.int 200)] := by
  have h := C158_guarded_back be64 percent percent_unswitched (by decide) (by decide +kernel) [1, 200] []
    [.int 1, .present (.int 200)] C148_fails_read.1
  rw [C148_fails_read.2] at h
  exact Classical.not_and_iff_not_or_not.1 fun h' => by cases h.2 h'

/-- The tag of the third alternative is written as 1, which is no label: what is sent is not
valid for the reader. -/
example : ∃ us, Sent be64 mixedWrite [.int 0, .var 2 (.int 5)] us ∧ ¬ Valid be64 mixedRead us := by
  obtain ⟨us, h1, h2, h3⟩ := (C158_labels be64 ieee [.plain "tag" (.num u8 1) .none] [] "body" "tag" u8
    mixedLabels mixedStored mixed_stored mixedAlts .none (by decide +kernel) (by decide +kernel)
    [.int 0, .var 2 (.int 5)] (by decide +kernel) [1, 5]).1 C127_fails_half.1
  refine ⟨us, h1, fun hv => ?_⟩
  have := (h3 []).2 hv
  rw [List.append_nil] at this
  have := C127_fails_half.2.symm.trans this
  cases this

/-- `C158_labels_pick`: the first label that compares equal to 2 is the second. -/
example : Picks ieee u8 2 mixedLabels 1 :=
  (C158_labels_pick be64 ieee [.plain "tag" (.num u8 1) .none] [] "body" "tag" u8 1 .none (by simp)
    mixedLabels mixedStored mixed_stored (by decide +kernel) mixedAlts .none (by decide +kernel) [.int 2] [] 1 (.int 256) rfl
    (by decide +kernel) (.int 8 false, 2) rfl).1
    ((read_iff be64 mixedRead (by decide +kernel) [2, 1, 0] [] _).1 (by decide +kernel)).1

/-- One element without elements, behind a number of one byte in a u16, in big endian on a
little-endian host: the number alone is written, as the byte 0. -/
example : ∃ xs, Sent be64 (narrowGaps.map VField.asBytes) [.int 0, .seq [.seq [.int 9]]] xs ∧
    [0] = usualBytes .big narrowGaps xs ∧
    (0 < weights narrowGaps xs → visible narrowGaps [.int 0, .seq []] ≠ visible narrowGaps xs) := by
  obtain ⟨xs, h1, h2, h3⟩ := C158_vacant_no_return be64 rfl (by decide) narrowGaps (by decide) (by decide +kernel)
    [.int 0, .seq [.seq [.int 9]]] (by decide +kernel) [0] (by rfl)
  exact ⟨xs, h1, h2, fun h => h3 h _ [] (by rfl)⟩
example := (C158_vacant_foreign be64 (by decide) narrowGaps (by decide) (by decide +kernel)
    [.int 0, .seq [.seq [.int 9]]] (by decide +kernel) [0]).1 (by rfl)
example : ∃ xs, Sent { be64 with host := .big } (narrowGaps.map VField.asBytes) [.int 0, .seq [.seq [.int 9]]] xs ∧
    ¬ Valid { be64 with host := .big } (narrowGaps.map VField.asBytes) xs := by
  obtain ⟨xs, h1, h2, h3⟩ := (C158_vacant_host { be64 with host := .big } rfl rfl narrowGaps (by decide)
    (by decide +kernel) [.int 0, .seq [.seq [.int 9]]] (by decide +kernel) [0, 9]).1 C145_fails_narrow.1
  refine ⟨xs, h1, fun hv => ?_⟩
  have := (h3 []).2 hv
  rw [List.append_nil, C145_fails_narrow.2] at this
  cases this

/-- A number nobody takes a length or a choice from is sent as it is. -/
theorem sent_free {cfg : Cfg} {all : List Field} {vals : List Val} {id : String} {t : ScalarTy} {w : Nat} {x : Int}
    (hw : w ≤ t.size) (hs : isSlot all id = false) (hp : ∀ f ∈ all, ∃ i k c, f = .plain i k c) :
    SentField cfg all vals (.plain id (.num t w) .none) (.int x) (.int x) := by
  simp only [SentField, hs, Bool.false_eq_true, if_false, typedConst, SentKind]
  refine ⟨by simp [Holds, Constraint.check], hw, x, rfl, fun f v m hm ha => ?_, trivial⟩
  obtain ⟨i, k, c, rfl⟩ := hp f (List.of_mem_zip hm).1
  cases ha

def numberedPair : List Field := followed [.plain "a" (.num u8 1) .none] "ys" (.array 2) [.plain "y" (.num u16 1) .none]

theorem numberedPair_sent (a y z : Int) : Sent be64 numberedPair ([.int a] ++ [.seq ([[.int y], [.int z]].map .seq)])
    ([.int a] ++ [.seq ([[.int y], [.int z]].map .seq)]) := by
  have hy : ∀ x, SentFields be64 [.plain "y" (.num u16 1) .none] [.int x] [.plain "y" (.num u16 1) .none] [.int x] [.int x] := by
    intro x
    simp only [SentFields]
    exact ⟨_, _, _, _, rfl, rfl, sent_free (by decide) (by decide) (by simp), rfl, rfl⟩
  unfold Sent numberedPair followed
  simp only [List.cons_append, List.nil_append, SentFields]
  refine ⟨_, _, _, _, rfl, rfl, sent_free (by decide) (by decide) (by simp), _, _, _, _, rfl, rfl, ?_, rfl, rfl⟩
  simp only [SentField, Several.kind, SentKind]
  rw [if_neg (by decide)]
  exact ⟨by simp [Holds, Constraint.check], _, _, rfl, rfl, rfl, oneByOne_records.2 ⟨rfl, by
    simp only [List.zip_cons_cons, List.zip_nil_right, List.mem_cons, List.not_mem_nil, or_false,
      forall_eq_or_imp, forall_eq]
    exact ⟨hy y, hy z⟩⟩⟩

/-- `C158_records_sent`, `C158_records`: a number and two records of one byte in a u16. Both ways
write the same; it is read back only if it is valid, that is if the lower bytes are zero. -/
example (a y z : Int) : ∀ q ∈ [[Val.int y], [.int z]].zip [[.int y], [.int z]],
    Sent be64 [.plain "y" (.num u16 1) .none] q.1 q.2 :=
  (C158_records_sent be64 _ "ys" (.array 2) _ [.int a] [.int a] [[.int y], [.int z]] [[.int y], [.int z]] rfl rfl
    (numberedPair_sent a y z)).2
example : ∃ p, (streamCast be64 numberedPair ([.int 1] ++ [.seq ([[.int 7], [.int 8]].map .seq)])).run = (.done (.ok ()), p) ∧
    writeMany be64 listOut (([.plain "a" (.num u8 1) .none], [.int 1]) ::
      [[.int 7], [.int 8]].map ([.plain "y" (.num u16 1) .none], ·)) ([] : List Byte) = (.done (.ok ()), p) := by
  obtain ⟨p, h1, h2, -⟩ := C158_records be64 [.plain "a" (.num u8 1) .none] "ys" (.array 2)
    [.plain "y" (.num u16 1) .none] (by decide) (by decide +kernel) (by decide) (by decide +kernel)
    (by decide +kernel) [.int 1] [.int 1] [[.int 7], [.int 8]] [[.int 7], [.int 8]] (by decide +kernel)
    (by decide +kernel) (by decide +kernel) rfl (numberedPair_sent 1 7 8)
    (by
      unfold Sent
      simp only [SentFields]
      exact ⟨_, _, _, _, rfl, rfl, sent_free (by decide) (by decide) (by simp), rfl, rfl⟩)
  exact ⟨p, h1, h2⟩

end S2S.Props
