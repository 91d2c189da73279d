import Verif.Lemmas.WriteFields
import Verif.Lemmas.ReadFull
import Verif.Lemmas.WriteTree
import Verif.Lemmas.Append
/-
Casts on streams that refuse: where they stop and what they leave.
-/
namespace S2S
open Spec

/-! ### writes -/

theorem accepted_content {S : OutStream} {content : S.State → List Byte} {good : S.State → Prop}
    (hS : OutContract S content good) {s s' : S.State} {p : List Byte} (h : Accepted S s p s') :
    content s' = content s ++ p := by
  induction h with
  | nil s => simp
  | cons hw _ ih => rw [ih, (hS.accept _ _ _ hw).2.2, List.append_assoc]

/-- The step of one field ends in an error that names the field. -/
theorem step_error {cfg : Cfg} {ctx : WCtx} {f : Field} {v : Val} {S : OutStream} {s s' : S.State}
    {e : CastError} (h : Wr.runOn S (writeStep cfg ctx f v) s = (.done (.error e), s')) :
    e.failedAt = f.id := by
  unfold writeStep WrE.tag WrE.mapErr Wr.map at h
  rw [Wr.runOn_bind] at h
  split at h
  · rename_i a s1 _
    cases a with
    | error r => cases h; rfl
    | ok a => cases h
  · cases h

/-- A list that ends in an error on a stream, taken apart at the field that failed. -/
theorem runOn_error_split {cfg : Cfg} {ctx : WCtx} {fs : List Field} {vs : List Val} {S : OutStream}
    {s s' : S.State} {e : CastError}
    (h : Wr.runOn S (writeFields cfg ctx fs vs) s = (.done (.error e), s')) :
    ∃ pre f post vpre v vpost s1, fs = pre ++ f :: post ∧ vs = vpre ++ v :: vpost ∧
      vpre.length = pre.length ∧ e.failedAt = f.id ∧
      Wr.runOn S (writeFields cfg ctx pre vpre) s = (.done (.ok ()), s1) ∧
      Wr.runOn S (writeStep cfg ctx f v) s1 = (.done (.error e), s') := by
  induction fs generalizing vs s with
  | nil =>
    cases vs with
    | nil => simp only [writeFields] at h; cases h
    | cons v vs => simp only [writeFields] at h; cases h
  | cons f fs ih =>
    cases vs with
    | nil => simp only [writeFields] at h; cases h
    | cons v vs =>
      rw [writeFields_cons, WrE.runOn_andThen] at h
      split at h
      · rename_i s1 h1
        obtain ⟨pre, g, post, vpre, w, vpost, s2, rfl, rfl, hl, he, h2, h3⟩ := ih h
        refine ⟨f :: pre, g, post, v :: vpre, w, vpost, s2, rfl, rfl, by simp [hl], he, ?_, h3⟩
        rw [writeFields_cons, WrE.runOn_andThen, h1]
        exact h2
      · rename_i e' s1 h1
        cases h
        refine ⟨[], f, fs, [], v, vs, s, rfl, rfl, rfl, step_error h1, ?_, h1⟩
        simp only [writeFields]
        rfl
      · cases h

theorem wshort_writeStep (cfg : Cfg) (ctx : WCtx) (f : Field) (v : Val) :
    WShortC (writeStep cfg ctx f v) := by
  unfold writeStep
  refine WrE.short_mapErr (P := fun e => e = .bufferExhaustion) ?_ (fun e h => h)
  split
  · exact wshort_writeField cfg f ctx v
  · exact wshort_checked _ _ (wshort_writeField cfg f ctx v)

/-- What is on a healthy stream after the fields up to `f` is a prefix of what is on it in
the end. -/
theorem out_prefix (cfg : Cfg) (ctx : WCtx) (pre post : List Field) (f : Field)
    (vpre vpost : List Val) (v : Val) (hl : vpre.length = pre.length) {q : List Byte}
    (h : (writeFields cfg ctx pre vpre).Emits q ()) :
    q ++ (Wr.out (writeStep cfg ctx f v)).2 <+:
      (Wr.out (writeFields cfg ctx (pre ++ f :: post) (vpre ++ v :: vpost))).2 := by
  rw [out_split _ _ _ _ _ _ _ _ hl, h]
  cases Wr.out (writeStep cfg ctx f v) with
  | mk o r =>
    cases o with
    | stuck w => simp
    | done a =>
      cases a with
      | error e => simp
      | ok a => simp [← List.append_assoc, List.prefix_append]

/-- A stream with enough room takes everything. -/
theorem Wr.runOn_room {S : OutStream} {good : S.State → Prop} {room : S.State → Nat}
    (hR : HasRoom S good room) (w : Wr α) (s : S.State) (hg : good s)
    (hr : w.out.2.length ≤ room s) : ∃ s', Accepted S s w.out.2 s' ∧ w.runOn S s = (w.out.1, s') ∧
      good s' ∧ room s' + w.out.2.length = room s := by
  induction w generalizing s with
  | ret a => exact ⟨s, .nil s, rfl, hg, rfl⟩
  | stuck w => exact ⟨s, .nil s, rfl, hg, rfl⟩
  | write bs k ih =>
    simp only [Wr.out, List.length_append] at hr ⊢
    obtain ⟨s1, hw, hg1, hr1⟩ := hR.fits s bs hg (by omega)
    obtain ⟨s', h1, h2, h3, h4⟩ := ih true s1 hg1 (by omega)
    refine ⟨s', .cons hw h1, ?_, h3, by omega⟩
    simp only [Wr.runOn, hw, h2]

/-- `memstream` with too little room ends up full, with the first bytes. -/
theorem Wr.runOn_memstream {P : α → Prop} {w : Wr α} (hs : w.Short P) (room : Nat) (got : List Byte)
    (h : room < w.out.2.length) : ∃ a, P a ∧
      w.runOn memstreamOut (room, got, false) = (.done a, (0, got ++ w.out.2.take room, true)) := by
  induction w generalizing room got with
  | ret a => simp [Wr.out] at h
  | stuck w => simp [Wr.out] at h
  | write bs k ih =>
    obtain ⟨⟨a, h1, h2⟩, h3⟩ := hs
    simp only [Wr.out, List.length_append] at h ⊢
    by_cases hb : bs.length ≤ room
    · obtain ⟨a, ha, h4⟩ := ih true h3 (room - bs.length) (got ++ bs) (by omega)
      refine ⟨a, ha, ?_⟩
      simp only [Wr.runOn, memstreamOut, hb, if_true, Bool.not_false] at h4 ⊢
      rw [h4, List.take_append, List.take_of_length_le hb, List.append_assoc]
    · refine ⟨a, h2, ?_⟩
      simp only [Wr.runOn, memstreamOut, hb, if_false, h1]
      rw [List.take_append_of_le_length (by omega)]

/-- On a stream that refuses the next write: nothing is written, and the stream has no
part in the result, or the first write ends the run. -/
theorem Wr.runOn_dead {P : α → Prop} {S : OutStream} {s : S.State}
    (hd : ∀ bs, ∃ s', S.write s bs = (false, s')) {w : Wr α} (hs : w.Short P) :
    (w.callsOn S s = [] ∧ w.out.2 = [] ∧ ∀ (T : OutStream) (t : T.State), w.runOn T t = (w.out.1, t)) ∨
    (∃ a bs s', P a ∧ S.write s bs = (false, s') ∧ w.callsOn S s = [bs.length] ∧
      w.runOn S s = (.done a, s')) := by
  cases w with
  | ret a => exact .inl ⟨rfl, rfl, fun _ _ => rfl⟩
  | stuck w => exact .inl ⟨rfl, rfl, fun _ _ => rfl⟩
  | write bs k =>
    obtain ⟨⟨a, h1, h2⟩, -⟩ := hs
    obtain ⟨s', hw⟩ := hd bs
    exact .inr ⟨a, bs, s', h2, hw, by simp [Wr.callsOn, hw, h1], by simp [Wr.runOn, hw, h1]⟩

/-! ### reads -/

theorem Rd.runOn_dead {P : α → Prop} {S : InStream} {s : S.State}
    (hd : ∀ n, ∃ s', S.read s n = (none, s')) {r : Rd α} (hs : r.Short P) :
    (r.callsOn S s = [] ∧ ∃ o, r.Path [] o ∧ ∀ (T : InStream) (t : T.State), r.runOn T t = (o, t)) ∨
    (∃ a n s', P a ∧ S.read s n = (none, s') ∧ r.callsOn S s = [n] ∧ r.runOn S s = (.done a, s')) := by
  induction r with
  | ret a => exact .inl ⟨rfl, _, ⟨rfl, rfl⟩, fun _ _ => rfl⟩
  | stuck w => exact .inl ⟨rfl, _, ⟨rfl, rfl⟩, fun _ _ => rfl⟩
  | read n k _ =>
    obtain ⟨⟨a, h1, h2⟩, -⟩ := hs
    obtain ⟨s', hr⟩ := hd n
    exact .inr ⟨a, n, s', h2, hr, by simp [Rd.callsOn, hr, h1], by simp [Rd.runOn, hr, h1]⟩
  | alloc b k ih => exact ih hs

end S2S
