import Verif.Spec.Envelope
import Verif.Props.Damage
import Verif.Props.Rewrite
import Verif.Spec.Demo
import Verif.Props.Evolution
/-
C140: a union of records behind a header is a header, a choice and a body.
-/
namespace S2S.Props
open Spec Demo

theorem readAlts_bodies (cfg : Cfg) (env : Env) (bodies : List (List Field)) (i : Nat)
    (hi : i < bodies.length) :
    readAlts cfg env (bodyAlts bodies) i =
      (((structCast cfg (bodies.getD i [])).mapErr CastError.reason).mapOk Val.seq).mapOk some := by
  induction bodies generalizing i with
  | nil => simp at hi
  | cons b bodies ih =>
    cases i with
    | zero =>
      simp only [bodyAlts, List.map_cons, readAlts, readKind, List.getD_cons_zero]
      rfl
    | succ i =>
      simpa only [bodyAlts, List.map_cons, readAlts, List.getD_cons_succ] using
        ih i (by simpa using hi)

theorem wireAlts_bodies (o : Endian) (bodies : List (List Field)) (ws : List Val) {i : Nat}
    (hi : i < bodies.length) :
    wireAlts o (bodyAlts bodies) i (.seq ws) = wireFields o (bodies.getD i []) ws := by
  induction bodies generalizing i with
  | nil => simp at hi
  | cons b bodies ih =>
    cases i with
    | zero => simp only [bodyAlts, List.map_cons, wireAlts, wireKind, List.getD_cons_zero]
    | succ i =>
      simpa only [bodyAlts, List.map_cons, wireAlts, List.getD_cons_succ] using ih (by simpa using hi)

theorem arity_bodies {hdr : List Field} {id : String} {d : Deducer} {bodies : List (List Field)}
    (hwf : WellFormed (enveloped hdr id d bodies)) : arity d = bodies.length := by
  have := sane_suffix hdr _ hwf.1
  simp only [saneFields, saneField, Bool.and_eq_true, decide_eq_true_eq] at this
  rw [this.1.1, bodyAlts, List.length_map]

/-- C140. One cast of the header with the union is the program that reads the header, chooses and
reads the body: the same result, and the stream is left in the same place, whatever happens. -/
theorem C140_read (cfg : Cfg) (hdr : List Field) (id : String) (d : Deducer) (bodies : List (List Field))
    (hwf : WellFormed (enveloped hdr id d bodies)) (S : InStream) (s : S.State) :
    (structCast cfg (enveloped hdr id d bodies)).runOn S s = byHand cfg hdr id d bodies S s := by
  have hlen := arity_bodies hwf
  unfold byHand
  rcases h : (structCast cfg hdr).runOn S s with ⟨o, s1⟩
  cases o with
  | stuck w =>
    rw [enveloped, structCast_append cfg hdr _ hwf, RdE.runOn_andThen, h]
  | done a =>
    cases a with
    | error e => rw [enveloped, structCast_append cfg hdr _ hwf, RdE.runOn_andThen, h]
    | ok us =>
      rw [enveloped, runOn_append cfg hdr _ hwf S s s1 us h]
      simp only [readRest, readFields, readField, RdE.tag, RdE.runOn_andThen, RdE.runOn_mapErr,
        RdE.mapOk, RdE.checked, RdE.lift, RdE.ok_andThen, Field.constraint]
      cases hd : d.eval (envOf hdr us) with
      | error w => rfl
      | ok o =>
        cases o with
        | none => rfl
        | some i =>
          have hi : i < bodies.length := hlen ▸ Deducer.eval_lt _ _ _ hd
          simp only [readAlts_bodies cfg _ bodies i hi, RdE.runOn_andThen, RdE.runOn_mapErr,
            RdE.mapOk, RdE.ok, Rd.runOn]
          rcases (structCast cfg (bodies.getD i [])).runOn S s1 with ⟨o, s2⟩
          cases o with
          | stuck w => rfl
          | done a => cases a <;> rfl

/-- A kind, and by it a point or a text. -/
def letterHead : List Field := [.plain "kind" (.num u8 1) .none, .plain "from" (.num u16 2) .none]
def letterBodies : List (List Field) :=
  [[.plain "x" (.num u8 1) .none, .plain "y" (.num u8 1) (.cmp .lt i32 9)],
   [.plain "n" (.num u8 1) .none, .plain "text" (.vec (.scalar u8) (.fromField "n") (some 40)) .none]]
def letterKind : Deducer := .matchField "kind" u8 [(i32, 7), (i32, 8)]

example : ((structCast be64 (enveloped letterHead "body" letterKind letterBodies)).runOn listIn
      ([8, 1, 0, 2, 65, 66, 99] : List Byte) =
        (.done (.ok [.int 8, .int 256, .var 1 (.seq [.int 2, .seq [.int 65, .int 66]])]), [99])) ∧
    ((structCast be64 (enveloped letterHead "body" letterKind letterBodies)).runOn listIn
      ([7, 1, 0, 2, 65, 66, 99] : List Byte) =
        (.done (.error ⟨.validationFailure, "body"⟩), [66, 99])) ∧
    ((structCast be64 (enveloped letterHead "body" letterKind letterBodies)).runOn listIn
      ([9, 1, 0, 2, 65, 66, 99] : List Byte) =
        (.done (.error ⟨.typeDeductionFailure, "body"⟩), [2, 65, 66, 99])) := by
  have h := fun inp : List Byte =>
    C140_read be64 letterHead "body" letterKind letterBodies (by decide) listIn inp
  exact ⟨(h _).trans rfl, (h _).trans rfl, (h _).trans rfl⟩

/-- C140. A struct of the one list is a struct of the header, the choice it makes and a struct of
that body, and its encoding is theirs, one after the other. -/
theorem C140_valid (cfg : Cfg) (hdr : List Field) (id : String) (d : Deducer) (bodies : List (List Field))
    (hwf : WellFormed (enveloped hdr id d bodies)) (hb : ∀ b ∈ bodies, WellFormed b) (vs : List Val) :
    Valid cfg (enveloped hdr id d bodies) vs ↔
      ∃ us i ws, vs = us ++ [.var i (.seq ws)] ∧ Valid cfg hdr us ∧ d.eval (envOf hdr us) = .ok (some i) ∧
        Valid cfg (bodies.getD i []) ws ∧
        wire cfg (enveloped hdr id d bodies) vs = wire cfg hdr us ++ wire cfg (bodies.getD i []) ws := by
  have hlen := arity_bodies hwf
  have hbody : ∀ {us i}, d.eval (envOf hdr us) = .ok (some i) → WellFormed (bodies.getD i []) := fun {us i} h => by
    have hi : i < bodies.length := hlen ▸ Deducer.eval_lt _ _ _ h
    have : bodies.getD i [] = bodies[i] := by simp [hi]
    rw [this]
    exact hb _ (List.getElem_mem hi)
  constructor
  · intro h
    have h1 := (read_iff cfg _ hwf _ [] _).2 ⟨h, rfl⟩
    rw [List.append_nil] at h1
    replace h1 := (C140_read cfg hdr id d bodies hwf listIn _).symm.trans h1
    unfold byHand at h1
    split at h1
    · rename_i us s1 hu
      split at h1
      · cases h1
      · cases h1
      · rename_i i hi
        split at h1
        · rename_i ws s2 hw
          cases h1
          obtain ⟨v1, e1⟩ := (read_iff cfg hdr (wf_prefix hwf) _ _ _).1 hu
          obtain ⟨v2, e2⟩ := (read_iff cfg _ (hbody hi) _ _ _).1 hw
          refine ⟨us, i, ws, rfl, v1, hi, v2, ?_⟩
          rw [e1, e2, List.append_nil]
        · cases h1
        · cases h1
    · rename_i hne
      exact absurd h1 (hne _ _)
  · rintro ⟨us, i, ws, rfl, v1, hi, v2, e⟩
    have h1 := (read_iff cfg hdr (wf_prefix hwf) _ (wire cfg (bodies.getD i []) ws) _).2 ⟨v1, rfl⟩
    have h2 := (read_iff cfg _ (hbody hi) _ [] _).2 ⟨v2, rfl⟩
    rw [List.append_nil] at h2
    have h3 : (structCast cfg (enveloped hdr id d bodies)).run
        (wire cfg hdr us ++ wire cfg (bodies.getD i []) ws) =
          (.done (.ok (us ++ [.var i (.seq ws)])), []) := by
      refine (C140_read cfg hdr id d bodies hwf listIn _).trans ?_
      unfold byHand
      unfold Rd.run at h1 h2
      rw [h1]
      simp only [hi, h2]
      rfl
    exact ((read_iff cfg _ hwf _ _ _).1 h3).1

example : Valid be64 (enveloped letterHead "body" letterKind letterBodies)
    [.int 7, .int 3, .var 0 (.seq [.int 1, .int 8])] :=
  (C140_valid be64 letterHead "body" letterKind letterBodies (by decide) (by decide) _).2
    ⟨[.int 7, .int 3], 0, [.int 1, .int 8], rfl, by decide +kernel, by rfl, by decide +kernel, by rfl⟩

/-- C140. What a cast of the header and a cast of the body have written, one after the other on one
stream, the one cast with the union writes too, and both readers read it. -/
theorem C140_write (cfg : Cfg) (hdr : List Field) (id : String) (d : Deducer) (bodies : List (List Field))
    (hrw : Rewritable cfg (enveloped hdr id d bodies)) (hh : Rewritable cfg hdr)
    (hb : ∀ b ∈ bodies, Rewritable cfg b) (us ws : List Val) (i : Nat) (hu : Valid cfg hdr us)
    (hi : d.eval (envOf hdr us) = .ok (some i)) (hw : Valid cfg (bodies.getD i []) ws) :
    ∃ p q, (streamCast cfg hdr us).run = (.done (.ok ()), p) ∧
      (streamCast cfg (bodies.getD i []) ws).run = (.done (.ok ()), q) ∧
      (streamCast cfg (enveloped hdr id d bodies) (us ++ [.var i (.seq ws)])).run =
        (.done (.ok ()), p ++ q) ∧
      (∀ rest, (structCast cfg (enveloped hdr id d bodies)).run (p ++ q ++ rest) =
        (.done (.ok (us ++ [.var i (.seq ws)])), rest)) ∧
      (∀ rest, (structCast cfg hdr).run (p ++ rest) = (.done (.ok us), rest)) ∧
      (∀ rest, (structCast cfg (bodies.getD i [])).run (q ++ rest) = (.done (.ok ws), rest)) := by
  have hlt : i < bodies.length := arity_bodies hrw.1 ▸ Deducer.eval_lt _ _ _ hi
  have hget : bodies.getD i [] = bodies[i] := by simp [hlt]
  have hbi : Rewritable cfg (bodies.getD i []) := hget ▸ hb _ (List.getElem_mem hlt)
  have hl : us.length = hdr.length := (fits_length hu.1).symm
  have he : wire cfg (enveloped hdr id d bodies) (us ++ [.var i (.seq ws)]) =
      wire cfg hdr us ++ wire cfg (bodies.getD i []) ws := by
    rw [wire, enveloped, wireFields_append _ _ _ _ _ hl]
    simp only [wireFields, wireField, wireAlts_bodies _ _ _ hlt, List.append_nil]
    rfl
  have hv := (C140_valid cfg hdr id d bodies hrw.1 (fun b h => (hb b h).1) _).2
    ⟨us, i, ws, rfl, hu, hi, hw, he⟩
  refine ⟨wire cfg hdr us, wire cfg (bodies.getD i []) ws, ?_, ?_, ?_, ?_, ?_, ?_⟩
  · rw [Wr.run_eq]; exact streamCast_complete hh hu
  · rw [Wr.run_eq]; exact streamCast_complete hbi hw
  · rw [← he, Wr.run_eq]; exact streamCast_complete hrw hv
  · intro rest; exact (read_iff cfg _ hrw.1 _ _ _).2 ⟨hv, by rw [he]⟩
  · intro rest; exact (read_iff cfg _ hh.1 _ _ _).2 ⟨hu, rfl⟩
  · intro rest; exact (read_iff cfg _ hbi.1 _ _ _).2 ⟨hw, rfl⟩

example : ∃ p q, (streamCast be64 letterHead [.int 8, .int 256]).run = (.done (.ok ()), p) ∧
    (streamCast be64 (letterBodies.getD 1 []) [.int 1, .seq [.int 65]]).run = (.done (.ok ()), q) ∧
    (streamCast be64 (enveloped letterHead "body" letterKind letterBodies)
      ([.int 8, .int 256] ++ [.var 1 (.seq [.int 1, .seq [.int 65]])])).run = (.done (.ok ()), p ++ q) := by
  obtain ⟨p, q, h1, h2, h3, -⟩ := C140_write be64 letterHead "body" letterKind letterBodies
    (rewritable_of_checked (by decide +kernel)) (rewritable_of_checked (by decide +kernel))
    (fun b h => by
      simp only [letterBodies, List.mem_cons, List.not_mem_nil, or_false] at h
      rcases h with rfl | rfl <;> exact rewritable_of_checked (by decide +kernel))
    [.int 8, .int 256] [.int 1, .seq [.int 65]] 1 (by decide +kernel) (by rfl) (by decide +kernel)
  exact ⟨p, q, h1, h2, h3⟩

end S2S.Props
