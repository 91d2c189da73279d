import Verif.Spec.Pieces
import Verif.Props.Sizes
import Verif.Props.Damage
/-
C141: bytes may come in any pieces.
-/
namespace S2S.Props
open Spec Demo

theorem run_ok_append {cfg : Cfg} {fs : List Field} {a rest : List Byte} {v : List Val}
    (h : (structCast cfg fs).run a = (.done (.ok v), rest)) (b : List Byte) :
    (structCast cfg fs).run (a ++ b) = (.done (.ok v), rest ++ b) := by
  obtain ⟨p, rfl, hp⟩ := C03_exact_consumption cfg fs a rest v h
  rw [List.append_assoc]; exact hp _

/-- One buffer, one outcome. -/
theorem drains_unique {cfg : Cfg} {fs : List Field} {a : List Byte} {vs us : List (List Val)} {st st' : Status}
    (h : Drains cfg fs a vs st) (h' : Drains cfg fs a us st') : us = vs ∧ st' = st := by
  induction h generalizing us with
  | wait h1 h2 =>
    cases h' with
    | wait => exact ⟨rfl, rfl⟩
    | fail g1 g2 => rw [h1] at g1; cases g1; exact absurd h2 g2
    | crash g1 => rw [h1] at g1; cases g1
    | step g1 _ => rw [h1] at g1; cases g1
  | fail h1 h2 =>
    cases h' with
    | wait g1 g2 => rw [h1] at g1; cases g1; exact absurd g2 h2
    | fail g1 g2 => rw [h1] at g1; cases g1; exact ⟨rfl, rfl⟩
    | crash g1 => rw [h1] at g1; cases g1
    | step g1 _ => rw [h1] at g1; cases g1
  | crash h1 =>
    cases h' with
    | wait g1 _ => rw [h1] at g1; cases g1
    | fail g1 _ => rw [h1] at g1; cases g1
    | crash g1 => rw [h1] at g1; cases g1; exact ⟨rfl, rfl⟩
    | step g1 _ => rw [h1] at g1; cases g1
  | step h1 _ ih =>
    cases h' with
    | wait g1 _ => rw [h1] at g1; cases g1
    | fail g1 _ => rw [h1] at g1; cases g1
    | crash g1 => rw [h1] at g1; cases g1
    | step g1 g2 =>
      rw [h1] at g1; cases g1
      obtain ⟨rfl, rfl⟩ := ih g2
      exact ⟨rfl, rfl⟩

/-- With more bytes behind, the structs are the same and it goes on where it waited. -/
theorem drains_more {cfg : Cfg} {fs : List Field} {a r : List Byte} {vs : List (List Val)}
    (h : Drains cfg fs a vs (.waiting r)) (b : List Byte) (us : List (List Val)) (st : Status) :
    Drains cfg fs (a ++ b) us st ↔ ∃ ws, us = vs ++ ws ∧ Drains cfg fs (r ++ b) ws st := by
  generalize hs : Status.waiting r = s at h
  induction h generalizing us with
  | wait h1 h2 =>
    cases hs
    exact ⟨fun h => ⟨us, rfl, h⟩, fun ⟨ws, e, h⟩ => by rw [e]; exact h⟩
  | fail => cases hs
  | crash => cases hs
  | @step buf v rest vs st' h1 h2 ih =>
    have h3 := run_ok_append h1 b
    constructor
    · intro h
      cases h with
      | wait g1 _ => rw [h3] at g1; cases g1
      | fail g1 _ => rw [h3] at g1; cases g1
      | crash g1 => rw [h3] at g1; cases g1
      | step g1 g2 =>
        rw [h3] at g1; cases g1
        obtain ⟨ws, rfl, h⟩ := (ih _ hs).1 g2
        exact ⟨ws, rfl, h⟩
    · rintro ⟨ws, rfl, h⟩
      exact .step h3 ((ih _ hs).2 ⟨ws, rfl, h⟩)

/-- Other ends are final. -/
theorem drains_final {cfg : Cfg} {fs : List Field} {a : List Byte} {vs : List (List Val)} {st : Status}
    (h : Drains cfg fs a vs st) (hs : ∀ r, st ≠ .waiting r) (b : List Byte) : Drains cfg fs (a ++ b) vs st := by
  induction h with
  | wait => exact absurd rfl (hs _)
  | fail h1 h2 => exact .fail (C05_errors_final cfg fs _ _ _ h1 h2 b) h2
  | crash h1 => exact .crash (C05_stuck_final cfg fs _ _ _ h1 b)
  | step h1 _ ih => exact .step (run_ok_append h1 b) (ih hs)

/-- What is kept waits. -/
theorem drains_waiting {cfg : Cfg} {fs : List Field} {a r : List Byte} {vs : List (List Val)}
    (h : Drains cfg fs a vs (.waiting r)) : Drains cfg fs r [] (.waiting r) := by
  generalize hs : Status.waiting r = s at h
  induction h with
  | wait h1 h2 => cases hs; exact .wait h1 h2
  | fail => cases hs
  | crash => cases hs
  | step _ _ ih => exact ih hs

/-- What can be drained with more bytes behind can be drained without them. -/
theorem drains_prefix {cfg : Cfg} {fs : List Field} {ab : List Byte} {us : List (List Val)} {st : Status}
    (h : Drains cfg fs ab us st) (a b : List Byte) (e : ab = a ++ b) : ∃ vs st', Drains cfg fs a vs st' := by
  have key : ∀ a : List Byte, (∀ v rest, (structCast cfg fs).run a ≠ (.done (.ok v), rest)) →
      ∃ vs st', Drains cfg fs a vs st' := by
    intro a hne
    rcases hr : (structCast cfg fs).run a with ⟨o, left⟩
    match o with
    | .done (.ok v) => exact absurd hr (hne v left)
    | .done (.error er) =>
      by_cases hx : er.reason = .bufferExhaustion
      · exact ⟨_, _, .wait hr hx⟩
      · exact ⟨_, _, .fail hr hx⟩
    | .stuck w => exact ⟨_, _, .crash hr⟩
  induction h generalizing a with
  | wait h1 _ =>
    subst e
    exact key a fun v rest hr => by rw [run_ok_append hr b] at h1; cases h1
  | fail h1 _ =>
    subst e
    exact key a fun v rest hr => by rw [run_ok_append hr b] at h1; cases h1
  | crash h1 =>
    subst e
    exact key a fun v rest hr => by rw [run_ok_append hr b] at h1; cases h1
  | step h1 _ ih =>
    subst e
    by_cases hne : ∀ v rest, (structCast cfg fs).run a ≠ (.done (.ok v), rest)
    · exact key a hne
    · simp only [Classical.not_forall, Decidable.not_not] at hne
      obtain ⟨v, rest, hr⟩ := hne
      have h2 := run_ok_append hr b
      rw [h1] at h2
      cases h2
      obtain ⟨vs, st', h⟩ := ih rest rfl
      exact ⟨_, _, .step hr h⟩

theorem fed_cons_of {cfg : Cfg} {fs : List Field} (cs : List (List Byte))
    (ih : ∀ kept, Drains cfg fs kept [] (.waiting kept) → ∀ vs st,
      (Fed cfg fs kept cs vs st ↔ Drains cfg fs (kept ++ cs.flatten) vs st))
    (kept c : List Byte) (vs : List (List Val)) (st : Status) :
    Fed cfg fs kept (c :: cs) vs st ↔ Drains cfg fs (kept ++ c ++ cs.flatten) vs st := by
  constructor
  · intro h
    cases h with
    | more h1 h2 =>
      exact (drains_more h1 _ _ _).2 ⟨_, rfl, (ih _ (drains_waiting h1) _ _).1 h2⟩
    | over h1 h2 => exact drains_final h1 h2 _
  · intro h
    obtain ⟨us, st', h1⟩ := drains_prefix h (kept ++ c) cs.flatten rfl
    by_cases hw : ∃ r, st' = .waiting r
    · obtain ⟨r, rfl⟩ := hw
      obtain ⟨ws, rfl, h2⟩ := (drains_more h1 _ _ _).1 h
      exact .more h1 ((ih _ (drains_waiting h1) _ _).2 h2)
    · have hw' : ∀ r, st' ≠ .waiting r := fun r hr => hw ⟨r, hr⟩
      obtain ⟨rfl, rfl⟩ := drains_unique h (drains_final h1 hw' cs.flatten)
      exact .over h1 hw'

theorem fed_iff {cfg : Cfg} {fs : List Field} (cs : List (List Byte)) :
    ∀ kept, Drains cfg fs kept [] (.waiting kept) → ∀ vs st,
      (Fed cfg fs kept cs vs st ↔ Drains cfg fs (kept ++ cs.flatten) vs st) := by
  induction cs with
  | nil =>
    intro kept h vs st
    simp only [List.flatten_nil, List.append_nil]
    constructor
    · intro h'; cases h'; exact h
    · intro h'; obtain ⟨rfl, rfl⟩ := drains_unique h h'; exact .nil
  | cons c cs ih =>
    intro kept _ vs st
    rw [fed_cons_of cs ih, List.flatten_cons, List.append_assoc]

/-- C141. However the bytes are cut into pieces, the same structs are cast, with the same end, as
from all the bytes at once. -/
theorem C141_pieces (cfg : Cfg) (fs : List Field) (c : List Byte) (cs : List (List Byte))
    (vs : List (List Val)) (st : Status) :
    Fed cfg fs [] (c :: cs) vs st ↔ Drains cfg fs (c ++ cs.flatten) vs st :=
  fed_cons_of cs (fed_iff cs) [] c vs st

/-- Two letters in three pieces, cut inside the first and inside the second. -/
example : Fed be64 [.plain "n" (.num u16 2) .none] [] [[0], [7, 0, 8], [0]]
    [[.int 7], [.int 8]] (.waiting [0]) :=
  (C141_pieces be64 _ [0] [[7, 0, 8], [0]] _ _).2
    (.step (rest := [0, 8, 0]) rfl (.step (rest := [0]) rfl (.wait (e := ⟨.bufferExhaustion, "n"⟩) rfl rfl)))

/-- C141. The structs are those whose encodings the bytes begin with. -/
theorem C141_structs (cfg : Cfg) (fs : List Field) (hwf : WellFormed fs) (inp : List Byte)
    (vs : List (List Val)) (st : Status) :
    Drains cfg fs inp vs st ↔ ∃ rest, (∀ v ∈ vs, Valid cfg fs v) ∧
      inp = (vs.map (wire cfg fs)).flatten ++ rest ∧ Drains cfg fs rest [] st := by
  constructor
  · intro h
    induction h with
    | wait h1 h2 => exact ⟨_, by simp, rfl, .wait h1 h2⟩
    | fail h1 h2 => exact ⟨_, by simp, rfl, .fail h1 h2⟩
    | crash h1 => exact ⟨_, by simp, rfl, .crash h1⟩
    | @step _ v _ vs _ h1 _ ih =>
      obtain ⟨rest, hv, rfl, hr⟩ := ih
      obtain ⟨hv1, rfl⟩ := (read_iff cfg fs hwf _ _ _).1 h1
      refine ⟨rest, ?_, by simp, hr⟩
      intro u hu
      rcases List.mem_cons.1 hu with rfl | hu
      · exact hv1
      · exact hv u hu
  · rintro ⟨rest, hv, rfl, hr⟩
    induction vs with
    | nil => exact hr
    | cons v vs ih =>
      have h1 := hv v (List.mem_cons_self ..)
      rw [List.map_cons, List.flatten_cons, List.append_assoc]
      exact .step ((read_iff cfg fs hwf _ _ _).2 ⟨h1, rfl⟩) (ih fun u hu => hv u (List.mem_cons_of_mem _ hu))

example : ∃ rest, (∀ v ∈ [packetParsed, packetParsed], Valid be64 packet v) ∧
    packetBytes ++ (packetBytes ++ [0, 0, 0x12]) =
      ([packetParsed, packetParsed].map (wire be64 packet)).flatten ++ rest ∧
    Drains be64 packet rest [] (.waiting [0, 0, 0x12]) :=
  (C141_structs be64 packet (by decide) _ _ _).1
    (.step (rest := packetBytes ++ [0, 0, 0x12]) rfl (.step (rest := [0, 0, 0x12]) rfl
      (.wait (e := ⟨.bufferExhaustion, "magic"⟩) rfl rfl)))

/-- C141. What is kept is shorter than the longest struct, and does not begin with a struct. -/
theorem C141_kept (cfg : Cfg) (fs : List Field) (hwf : WellFormed fs) (inp r : List Byte)
    (vs : List (List Val)) (h : Drains cfg fs inp vs (.waiting r)) :
    r.length < maxFields cfg fs ∧ ∀ v tail, Valid cfg fs v → r ≠ wire cfg fs v ++ tail := by
  cases drains_waiting h with
  | wait h1 h2 =>
    rename_i e left
    obtain ⟨re, id⟩ := e
    cases h2
    refine ⟨C125_exhausted cfg fs hwf _ _ _ h1, ?_⟩
    rintro v tail hv he
    have := (read_iff cfg fs hwf _ _ _).2 ⟨hv, he⟩
    rw [h1] at this
    cases this

example : ([0, 0, 0x12] : List Byte).length < maxFields be64 packet :=
  (C141_kept be64 packet (by decide) (packetBytes ++ [0, 0, 0x12]) _ [packetParsed]
    (.step (rest := [0, 0, 0x12]) rfl (.wait (e := ⟨.bufferExhaustion, "magic"⟩) rfl rfl))).1

/-- C141. If every struct takes a byte at least, it always comes to an end, of which there is one. -/
theorem C141_ends (cfg : Cfg) (fs : List Field) (hwf : WellFormed fs) (hmin : 1 ≤ minFields fs)
    (inp : List Byte) : ∃ vs st, Drains cfg fs inp vs st ∧
      (∀ us st', Drains cfg fs inp us st' → us = vs ∧ st' = st) ∧ vs.length ≤ inp.length := by
  have key : ∀ n, ∀ inp : List Byte, inp.length ≤ n →
      ∃ vs st, Drains cfg fs inp vs st ∧ vs.length ≤ inp.length := by
    intro n
    induction n with
    | zero =>
      intro inp hl
      rcases hr : (structCast cfg fs).run inp with ⟨o, left⟩
      match o with
      | .done (.ok v) => have := C71_read_between cfg fs hwf _ _ _ hr; omega
      | .done (.error er) =>
        by_cases hx : er.reason = .bufferExhaustion
        · exact ⟨_, _, .wait hr hx, Nat.zero_le _⟩
        · exact ⟨_, _, .fail hr hx, Nat.zero_le _⟩
      | .stuck w => exact ⟨_, _, .crash hr, Nat.zero_le _⟩
    | succ n ih =>
      intro inp hl
      rcases hr : (structCast cfg fs).run inp with ⟨o, left⟩
      match o with
      | .done (.ok v) =>
        have := C71_read_between cfg fs hwf _ _ _ hr
        obtain ⟨vs, st, h, hle⟩ := ih left (by omega)
        exact ⟨_, _, .step hr h, by simp only [List.length_cons]; omega⟩
      | .done (.error er) =>
        by_cases hx : er.reason = .bufferExhaustion
        · exact ⟨_, _, .wait hr hx, Nat.zero_le _⟩
        · exact ⟨_, _, .fail hr hx, Nat.zero_le _⟩
      | .stuck w => exact ⟨_, _, .crash hr, Nat.zero_le _⟩
  obtain ⟨vs, st, h, hle⟩ := key _ inp (Nat.le_refl _)
  exact ⟨vs, st, h, fun us st' h' => drains_unique h h', hle⟩

example (inp : List Byte) : ∃ vs st, Drains be64 packet inp vs st ∧
    (∀ us st', Drains be64 packet inp us st' → us = vs ∧ st' = st) ∧ vs.length ≤ inp.length :=
  C141_ends be64 packet (by decide) (by decide) inp

/-- Less than a struct waits. -/
theorem drains_short {cfg : Cfg} {fs : List Field} (hwf : WellFormed fs) {v : List Val}
    (hv : Valid cfg fs v) (p q : List Byte) (hq : q ≠ []) (he : wire cfg fs v = p ++ q) :
    Drains cfg fs p [] (.waiting p) := by
  obtain ⟨e, left, h1, h2⟩ := C04_truncation cfg fs p q [] v
    ((read_iff cfg fs hwf _ _ _).2 ⟨hv, by rw [he]⟩) hq
  exact .wait h1 h2

theorem wire_ne_nil {cfg : Cfg} {fs : List Field} (hwf : WellFormed fs) (hmin : 1 ≤ minFields fs)
    {v : List Val} (hv : Valid cfg fs v) : wire cfg fs v ≠ [] := by
  intro h
  have := wireFields_between cfg cfg.wire fs hwf.1 v hv.1
  rw [← wire, h, List.length_nil] at this
  omega

theorem drains_sent {cfg : Cfg} {fs : List Field} (hwf : WellFormed fs)
    (h0 : Drains cfg fs [] [] (.waiting [])) : ∀ (vs : List (List Val)), (∀ v ∈ vs, Valid cfg fs v) →
    ∀ p q, p ++ q = (vs.map (wire cfg fs)).flatten →
      ∃ k r, k ≤ vs.length ∧ (q = [] → k = vs.length ∧ r = []) ∧
        p = ((vs.take k).map (wire cfg fs)).flatten ++ r ∧ Drains cfg fs p (vs.take k) (.waiting r)
  | [], _, p, q, h => by
    simp only [List.map_nil, List.flatten_nil, List.append_eq_nil_iff] at h
    obtain ⟨rfl, rfl⟩ := h
    exact ⟨0, [], Nat.le_refl _, fun _ => ⟨rfl, rfl⟩, rfl, h0⟩
  | v :: vs, hv, p, q, h => by
    rw [List.map_cons, List.flatten_cons] at h
    have hv1 := hv v (List.mem_cons_self ..)
    rcases List.append_eq_append_iff.1 h with ⟨x, hx, hq⟩ | ⟨x, rfl, hx⟩
    · by_cases hx0 : x = []
      · subst hx0
        rw [List.append_nil] at hx
        obtain ⟨k, r, hk, hqe, he, hd⟩ := drains_sent hwf h0 vs
          (fun u hu => hv u (List.mem_cons_of_mem _ hu)) [] q (by simpa using hq)
        refine ⟨k + 1, r, Nat.succ_le_succ hk, fun hq0 => ?_, ?_, ?_⟩
        · obtain ⟨rfl, rfl⟩ := hqe hq0; exact ⟨rfl, rfl⟩
        · rw [List.take_succ_cons, List.map_cons, List.flatten_cons, List.append_assoc, ← he, ← hx,
            List.append_nil]
        · exact .step ((read_iff cfg fs hwf _ _ _).2 ⟨hv1, by rw [← hx, List.append_nil]⟩) hd
      · refine ⟨0, p, Nat.zero_le _, fun hq0 => ?_, rfl, drains_short hwf hv1 p x hx0 hx⟩
        rw [hq0] at hq
        exact absurd (List.append_eq_nil_iff.1 hq.symm).1 hx0
    · obtain ⟨k, r, hk, hqe, he, hd⟩ := drains_sent hwf h0 vs
          (fun u hu => hv u (List.mem_cons_of_mem _ hu)) x q hx.symm
      refine ⟨k + 1, r, Nat.succ_le_succ hk, fun hq0 => ?_, ?_, ?_⟩
      · obtain ⟨rfl, rfl⟩ := hqe hq0; exact ⟨rfl, rfl⟩
      · rw [List.take_succ_cons, List.map_cons, List.flatten_cons, List.append_assoc, ← he]
      · exact .step ((read_iff cfg fs hwf _ _ _).2 ⟨hv1, rfl⟩) hd

/-- C141. While structs are being sent, whatever pieces have come, the receiver has cast as many
of the structs as have come whole and waits with the bytes after them. When all has come it has
all and keeps nothing. -/
theorem C141_arrive (cfg : Cfg) (fs : List Field) (hwf : WellFormed fs) (hmin : 1 ≤ minFields fs)
    (vs : List (List Val)) (hne : vs ≠ []) (hv : ∀ v ∈ vs, Valid cfg fs v) (cs : List (List Byte))
    (q : List Byte) (hcs : cs.flatten ++ q = (vs.map (wire cfg fs)).flatten) :
    ∃ k r, k ≤ vs.length ∧ (q = [] → k = vs.length ∧ r = []) ∧
      cs.flatten = ((vs.take k).map (wire cfg fs)).flatten ++ r ∧
      r.length < maxFields cfg fs ∧
      Fed cfg fs [] cs (vs.take k) (.waiting r) := by
  have h0 : Drains cfg fs [] [] (.waiting []) := by
    match vs, hne with
    | v :: _, _ =>
      have h1 := hv v (List.mem_cons_self ..)
      exact drains_short hwf h1 [] _ (wire_ne_nil hwf hmin h1) rfl
  obtain ⟨k, r, hk, hq, he, hd⟩ := drains_sent hwf h0 vs hv _ q hcs
  exact ⟨k, r, hk, hq, he, (C141_kept cfg fs hwf _ _ _ hd).1, (fed_iff cs [] h0 _ _).2 hd⟩

theorem packetParsed_valid : Valid be64 packet packetParsed :=
  ((read_iff be64 packet (by decide) packetBytes [] packetParsed).1 rfl).1

/-- Two packets, of which 21 bytes have come, in three pieces. -/
example : ∃ k r, k ≤ 2 ∧ (packetBytes.drop 3 = [] → k = 2 ∧ r = []) ∧
    [packetBytes.take 5, packetBytes.drop 5 ++ packetBytes.take 1, [0, 0x12]].flatten =
      (([packetParsed, packetParsed].take k).map (wire be64 packet)).flatten ++ r ∧
    r.length < maxFields be64 packet ∧
    Fed be64 packet [] [packetBytes.take 5, packetBytes.drop 5 ++ packetBytes.take 1, [0, 0x12]]
      ([packetParsed, packetParsed].take k) (.waiting r) :=
  C141_arrive be64 packet (by decide) (by decide) [packetParsed, packetParsed] (by simp)
    (by simp [packetParsed_valid]) _ _ rfl

end S2S.Props
