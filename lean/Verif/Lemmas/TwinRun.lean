import Verif.Lemmas.TwinRead
import Verif.Lemmas.TwinWrite
import Verif.Lemmas.OnStream
/-
What agreement of the two paths means on streams.
-/
namespace S2S
open Spec

theorem runOn_capacity {S : OutStream} {content : S.State → List Byte} {good : S.State → Prop}
    {room : S.State → Nat} (hS : Capacity S content good room) {P : ε → Prop} {w : WrE ε α}
    (hs : WrE.ShortE P w) (s : S.State) (hg : good s) :
    (Wr.runOn S w s).1 = Wr.cap w (room s) ∧
    (∀ a, (Wr.runOn S w s).1 = .done (.ok a) →
      good (Wr.runOn S w s).2 ∧ content (Wr.runOn S w s).2 = content s ++ (Wr.out w).2) := by
  induction w generalizing s with
  | ret a => exact ⟨rfl, fun _ _ => ⟨hg, by simp [Wr.out, Wr.runOn]⟩⟩
  | stuck w => exact ⟨rfl, fun _ h => by cases h⟩
  | write bs k ih =>
    obtain ⟨⟨a, h1, h2⟩, h3⟩ := hs
    by_cases hb : bs.length ≤ room s
    · obtain ⟨s', hw, hg', hc, hr⟩ := hS.accept s bs hg hb
      obtain ⟨h4, h5⟩ := ih true h3 s' hg'
      simp only [Wr.runOn, hw, Wr.cap, if_pos hb, Wr.out]
      refine ⟨by rw [h4, hr], fun a ha => ?_⟩
      obtain ⟨h6, h7⟩ := h5 a ha
      exact ⟨h6, by rw [h7, hc, List.append_assoc]⟩
    · obtain ⟨s', hw, hg'⟩ := hS.refuse s bs hg (by omega)
      simp only [Wr.runOn, hw, Wr.cap, if_neg hb, h1]
      refine ⟨rfl, fun b hb' => ?_⟩
      cases a with
      | ok a => exact h2.elim
      | error e => cases hb'

/-- With everything accepted there is always room. -/
theorem cap_room {P : ε → Prop} {w : WrE ε α} (hs : WrE.ShortE P w) {n : Nat}
    (h : (Wr.out w).2.length ≤ n) : Wr.cap w n = (Wr.out w).1 := by
  induction w generalizing n with
  | ret a => rfl
  | stuck w => rfl
  | write bs k ih =>
    simp only [Wr.out, List.length_append] at h
    simp only [Wr.cap, Wr.out]
    rw [if_pos (by omega)]
    exact ih true hs.2 (by omega)

/-- On a `memstream` the whole of the state is the same. -/
theorem AgreeW.memstream {w w' : WrE ε α} (h : AgreeW w w') (room : Nat) (got : List Byte) :
    Wr.runOn memstreamOut w (room, got, false) = Wr.runOn memstreamOut w' (room, got, false) := by
  by_cases hr : (Wr.out w).2.length ≤ room
  · have key : ∀ (v : WrE ε α) (room : Nat) (got : List Byte), (Wr.out v).2.length ≤ room →
        Wr.runOn memstreamOut v (room, got, false) =
          ((Wr.out v).1, (room - (Wr.out v).2.length, got ++ (Wr.out v).2, false)) := by
      intro v
      induction v with
      | ret a => intro room got _; simp [Wr.runOn, Wr.out]
      | stuck w => intro room got _; simp [Wr.runOn, Wr.out]
      | write bs k ih =>
        intro room got hv
        simp only [Wr.out, List.length_append] at hv
        simp only [Wr.runOn, memstreamOut, if_pos (show bs.length ≤ room by omega), Bool.not_false,
          Wr.out, List.length_append] at ih ⊢
        rw [ih true _ _ (by omega), List.append_assoc, Nat.sub_sub]
    rw [key w _ _ hr, key w' _ _ (by rw [← h.out]; exact hr), h.out]
  · obtain ⟨a, -, h1⟩ := Wr.runOn_memstream h.short room got (by omega)
    obtain ⟨a', -, h2⟩ := Wr.runOn_memstream h.short' room got (by rw [← h.out]; omega)
    have e1 := (runOn_capacity memstreamOut_capacity h.short (room, got, false) rfl).1
    have e2 := (runOn_capacity memstreamOut_capacity h.short' (room, got, false) rfl).1
    have e : (Wr.runOn memstreamOut w (room, got, false)).1 =
        (Wr.runOn memstreamOut w' (room, got, false)).1 := by rw [e1, e2, h.cap]
    rw [h1, h2] at e ⊢
    rw [h.out, show Outcome.done a = Outcome.done a' from e]

theorem AgreeW.streams {w w' : WrE ε α} (h : AgreeW w w') {S T : OutStream}
    {cS : S.State → List Byte} {gS : S.State → Prop} {rS : S.State → Nat}
    {cT : T.State → List Byte} {gT : T.State → Prop} {rT : T.State → Nat}
    (hS : Capacity S cS gS rS) (hT : Capacity T cT gT rT) (s : S.State) (t : T.State)
    (hs : gS s) (ht : gT t) (hr : rS s = rT t) (hc : cS s = cT t) :
    (Wr.runOn S w s).1 = (Wr.runOn T w' t).1 ∧
    (∀ a, (Wr.runOn S w s).1 = .done (.ok a) →
      gS (Wr.runOn S w s).2 ∧ gT (Wr.runOn T w' t).2 ∧
      cS (Wr.runOn S w s).2 = cT (Wr.runOn T w' t).2) := by
  obtain ⟨h1, h2⟩ := runOn_capacity hS h.short s hs
  obtain ⟨h3, h4⟩ := runOn_capacity hT h.short' t ht
  have e : (Wr.runOn S w s).1 = (Wr.runOn T w' t).1 := by rw [h1, h3, h.cap, hr]
  refine ⟨e, fun a ha => ?_⟩
  obtain ⟨h5, h6⟩ := h2 a ha
  obtain ⟨h7, h8⟩ := h4 a (e ▸ ha)
  exact ⟨h5, h7, by rw [h6, h8, hc, h.out]⟩

/-- From `memstream` to any two streams that abide by the contract. -/
theorem AgreeR.streams {E : Prop} {r r' : RdE ε α} (h : AgreeR E r r') {P : ε → Prop}
    (hr : RdE.ShortE P r) (hr' : RdE.ShortE P r') {S T : InStream}
    {cS : S.State → List Byte} {gS : S.State → Prop} {cT : T.State → List Byte} {gT : T.State → Prop}
    (hS : InContract S cS gS) (hT : InContract T cT gT) (s : S.State) (t : T.State)
    (hs : gS s) (ht : gT t) (hc : cS s = cT t) :
    (E ∧ ∃ w, (Rd.runOn T r' t).1 = .stuck w) ∨
    ((Rd.runOn S r s).1 = (Rd.runOn T r' t).1 ∧
      (gS (Rd.runOn S r s).2 → gT (Rd.runOn T r' t).2 →
        ∀ a, (Rd.runOn S r s).1 = .done (.ok a) →
        cS (Rd.runOn S r s).2 = cT (Rd.runOn T r' t).2)) := by
  obtain ⟨a1, a2⟩ := Rd.runOn_contract hS hr s hs
  obtain ⟨b1, b2⟩ := Rd.runOn_contract hT hr' t ht
  obtain ⟨c1, c2⟩ := Rd.runOn_contract memstreamIn_contract hr (cS s, false) rfl
  obtain ⟨d1, d2⟩ := Rd.runOn_contract memstreamIn_contract hr' (cS s, false) rfl
  simp only at c1 c2 d1 d2
  rw [← hc] at b1 b2
  rcases h (cS s) with ⟨hE, w, hw⟩ | ⟨h1, h2⟩
  · exact .inl ⟨hE, w, by rw [b1, ← d1, hw]⟩
  · refine .inr ⟨by rw [a1, b1, ← c1, ← d1, h1], fun hgs hgt a ha => ?_⟩
    have hg : (Rd.runOn memstreamIn r' (cS s, false)).2.2 = false :=
      h2 a (by rw [← h1, c1, ← a1, ha])
    rw [a2 hgs, b2 hgt, ← c2 (by rw [h1]; exact hg), ← d2 hg, h1]

/-- A stream is healthy after success. -/
theorem healthy {S : InStream} {content : S.State → List Byte} {good : S.State → Prop}
    (hS : InContract S content good) {P : ε → Prop} {r : RdE ε α} (hs : RdE.ShortE P r)
    (s : S.State) (hg : good s) {a : α} (h : (Rd.runOn S r s).1 = .done (.ok a)) :
    good (Rd.runOn S r s).2 := by
  induction r generalizing s with
  | ret a => exact hg
  | stuck w => cases h
  | read n k ih =>
    obtain ⟨⟨x, h1, h2⟩, h3⟩ := hs
    by_cases hn : n ≤ (content s).length
    · obtain ⟨s', hr, hg', -⟩ := hS.deliver s n hg hn
      simp only [Rd.runOn, hr] at h ⊢
      exact ih _ (h3 _ (S.len s n _ s' hr)) s' hg' h
    · obtain ⟨s', hr, -⟩ := hS.exhaust s n hg (by omega)
      simp only [Rd.runOn, hr, h1] at h
      cases x with
      | ok x => exact h2.elim
      | error e => cases h
  | alloc b k ih => exact ih hs s hg h

theorem AgreeW.symm {w w' : WrE ε α} (h : AgreeW w w') : AgreeW w' w :=
  ⟨h.short', h.short, h.out.symm, fun n => (h.cap n).symm⟩

theorem AgreeW.trans {w w' w'' : WrE ε α} (h : AgreeW w w') (h' : AgreeW w' w'') : AgreeW w w'' :=
  ⟨h.short, h'.short', h.out.trans h'.out, fun n => (h.cap n).trans (h'.cap n)⟩

theorem agree_twins (cfg : Cfg) (fs : List Field) (vs : List Val)
    (hc : Everywhere (TypedConsts cfg) fs) (hv : Typed cfg fs vs) :
    AgreeW (streamCast {cfg with constexprStream := false} fs vs)
      (streamCast {cfg with constexprStream := true} fs vs) :=
  (agree_streamCast cfg cfg.host false fs vs hc hv).symm.trans
    (agree_streamCast cfg cfg.host true fs vs hc hv)

end S2S
