import Verif.Spec.Records
import Verif.Props.Damage
import Verif.Props.Rewrite
import Verif.Spec.Demo
import Verif.Props.Evolution
/-
C143: a container of records is its records, one cast after the other.
-/
namespace S2S.Props
open Spec Demo

/-- What a program without the container does: read the header, find the number, read that many
records from the same stream. Errors are reported under the name of the container. -/
def oneByOne (cfg : Cfg) (hdr : List Field) (id : String) (c : Several) (fs : List Field)
    (S : InStream) (s : S.State) : Outcome (Except CastError (List Val)) × S.State :=
  match (structCast cfg hdr).runOn S s with
  | (.done (.ok us), s1) =>
      match c.count cfg (envOf hdr us) with
      | .error w => (.stuck w, s1)
      | .ok (.error r) => (.done (.error ⟨r, id⟩), s1)
      | .ok (.ok n) =>
          match readMany cfg S (List.replicate n fs) s1 with
          | (.done (.ok wss), s2) => (.done (.ok (us ++ [.seq (wss.map .seq)])), s2)
          | (.done (.error e), s2) => (.done (.error ⟨e.reason, id⟩), s2)
          | (.stuck w, s2) => (.stuck w, s2)
  | r => r

theorem runOn_records (cfg : Cfg) (fs : List Field) (S : InStream) (n : Nat) (s : S.State) :
    (repeatE (((structCast cfg fs).untag).mapOk Val.seq) n).runOn S s =
      match readMany cfg S (List.replicate n fs) s with
      | (.done (.ok wss), s2) => (.done (.ok (wss.map .seq)), s2)
      | (.done (.error e), s2) => (.done (.error e.reason), s2)
      | (.stuck w, s2) => (.stuck w, s2) := by
  induction n generalizing s with
  | zero => rfl
  | succ n ih =>
    simp only [repeatE, RdE.mapOk, RdE.untag, RdE.runOn_andThen, RdE.runOn_mapErr, List.replicate_succ,
      readMany]
    rcases (structCast cfg fs).runOn S s with ⟨o, s1⟩
    cases o with
    | stuck w => rfl
    | done a =>
      cases a with
      | error e => rfl
      | ok us =>
        simp only [RdE.ok, Rd.runOn]
        have := ih s1
        simp only [RdE.mapOk, RdE.untag] at this
        simp only [RdE.ok] at this
        rw [this]
        rcases readMany cfg S (List.replicate n fs) s1 with ⟨o, s2⟩
        cases o with
        | stuck w => rfl
        | done a => cases a <;> rfl

/-- C143. One cast of the header with the container is the program that reads the header and then
the records, one cast after the other: the same result, and the stream is left in the same place,
whatever happens. -/
theorem C143_read (cfg : Cfg) (hdr : List Field) (id : String) (c : Several) (fs : List Field)
    (hwf : WellFormed (followed hdr id c fs)) (S : InStream) (s : S.State) :
    (structCast cfg (followed hdr id c fs)).runOn S s = oneByOne cfg hdr id c fs S s := by
  unfold oneByOne
  rcases h : (structCast cfg hdr).runOn S s with ⟨o, s1⟩
  cases o with
  | stuck w =>
    rw [followed, structCast_append cfg hdr _ hwf, RdE.runOn_andThen, h]
  | done a =>
    cases a with
    | error e => rw [followed, structCast_append cfg hdr _ hwf, RdE.runOn_andThen, h]
    | ok us =>
      rw [followed, runOn_append cfg hdr _ hwf S s s1 us h]
      have key := fun n => runOn_records cfg fs S n s1
      simp only [structCast] at key
      cases c with
      | array n =>
        simp only [readRest, readFields, readField, RdE.tag, RdE.runOn_andThen, RdE.runOn_mapErr,
          Several.kind, readKind, Several.count]
        rw [RdE.mapOk, RdE.runOn_andThen, key]
        rcases readMany cfg S (List.replicate n fs) s1 with ⟨o, s2⟩
        cases o with
        | stuck w => rfl
        | done a => cases a <;> rfl
      | vector len bound size =>
        simp only [readRest, readFields, readField, RdE.tag, RdE.runOn_andThen, RdE.runOn_mapErr,
          Several.kind, readKind, Several.count, RdE.lift]
        cases hl : len.eval cfg (envOf hdr us) with
        | error w => rfl
        | ok n =>
          simp only [RdE.ok, Rd.runOn, checkedByteCount, ceilingOf]
          by_cases h1 : bound.getD cfg.defaultMax / size < n
          · simp only [gt_iff_lt, h1, if_true]
            rfl
          · simp only [gt_iff_lt, h1, if_false, resize]
            by_cases h2 : cfg.ptrdiffMax < n * size
            · simp only [h2, if_true]
              rfl
            · simp only [h2, if_false, Rd.runOn]
              rw [RdE.mapOk, RdE.runOn_andThen, key]
              rcases readMany cfg S (List.replicate n fs) s1 with ⟨o, s2⟩
              cases o with
              | stuck w => rfl
              | done a => cases a <;> rfl

/-- A number of points with a bound, behind a header. -/
def pointFields : List Field := [.plain "x" (.num u8 1) .none, .plain "y" (.num u8 1) (.cmp .lt i32 9)]
def pointsHead : List Field := [.plain "n" (.num u8 1) .none]
def pointsOf : Several := .vector (.fromField "n") (some 8) 2

example : ((structCast be64 (followed pointsHead "pts" pointsOf pointFields)).runOn listIn
      ([2, 10, 1, 20, 2, 99] : List Byte) =
        (.done (.ok [.int 2, .seq [.seq [.int 10, .int 1], .seq [.int 20, .int 2]]]), [99])) ∧
    ((structCast be64 (followed pointsHead "pts" pointsOf pointFields)).runOn listIn
      ([2, 10, 1, 20, 9, 99] : List Byte) =
        (.done (.error ⟨.validationFailure, "pts"⟩), [99])) ∧
    ((structCast be64 (followed pointsHead "pts" pointsOf pointFields)).runOn listIn
      ([5, 10, 1, 20, 9, 99] : List Byte) =
        (.done (.error ⟨.excessiveLength, "pts"⟩), [10, 1, 20, 9, 99])) := by
  have h := fun inp : List Byte =>
    C143_read be64 pointsHead "pts" pointsOf pointFields (by decide) listIn inp
  exact ⟨(h _).trans rfl, (h _).trans rfl, (h _).trans rfl⟩

theorem readMany_iff (cfg : Cfg) (fs : List Field) (hwf : WellFormed fs) (n : Nat) (inp rest : List Byte)
    (wss : List (List Val)) :
    readMany cfg listIn (List.replicate n fs) inp = (.done (.ok wss), rest) ↔
      wss.length = n ∧ (∀ w ∈ wss, Valid cfg fs w) ∧ inp = (wss.map (wire cfg fs)).flatten ++ rest := by
  induction n generalizing inp wss with
  | zero =>
    constructor
    · intro h; cases h; exact ⟨rfl, by simp, rfl⟩
    · rintro ⟨h, -, rfl⟩; cases List.length_eq_zero_iff.1 h; rfl
  | succ n ih =>
    constructor
    · intro h
      simp only [List.replicate_succ, readMany] at h
      split at h
      · rename_i vs s1 h1
        split at h
        · rename_i vss s2 h2
          cases h
          obtain ⟨hv, rfl⟩ := (read_iff cfg fs hwf inp s1 vs).1 h1
          obtain ⟨hl, hvs, rfl⟩ := (ih _ _).1 h2
          refine ⟨by simp [hl], ?_, by simp⟩
          intro w hw
          rcases List.mem_cons.1 hw with rfl | hw
          · exact hv
          · exact hvs w hw
        · rename_i hne
          exact absurd h (hne _ _)
      · cases h
      · cases h
    · rintro ⟨hl, hv, rfl⟩
      match wss, hl with
      | w :: wss, hl =>
        have h1 := (read_iff cfg fs hwf _ ((wss.map (wire cfg fs)).flatten ++ rest) w).2
          ⟨hv w (List.mem_cons_self ..), rfl⟩
        have h2 := (ih ((wss.map (wire cfg fs)).flatten ++ rest) wss).2
          ⟨by simpa using hl, fun u hu => hv u (List.mem_cons_of_mem _ hu), rfl⟩
        unfold Rd.run at h1
        simp only [List.replicate_succ, readMany, List.map_cons, List.flatten_cons, List.append_assoc]
        rw [h1]
        simp only [h2]
        rfl

theorem count_iff {cfg : Cfg} {env : Env} {c : Several}
    (hs : ∀ len b size, c = .vector len b size → 0 < size) (n : Nat) :
    c.count cfg env = .ok (.ok n) ↔ c.Are cfg env n := by
  cases c with
  | array m =>
    simp only [Several.count, Several.Are]
    constructor
    · intro h; cases h; rfl
    · rintro rfl; rfl
  | vector len b size =>
    have hp := hs _ _ _ rfl
    simp only [Several.count, Several.Are]
    cases h : len.eval cfg env with
    | error w => simp
    | ok m =>
      simp only [Except.ok.injEq]
      constructor
      · intro h'
        split at h'
        · cases h'
        · rename_i h1
          split at h'
          · cases h'
          · rename_i h2
            cases h'
            exact ⟨rfl, (Nat.le_div_iff_mul_le hp).1 (Nat.not_lt.1 h1), Nat.not_lt.1 h2⟩
      · rintro ⟨rfl, h1, h2⟩
        rw [if_neg (Nat.not_lt.2 ((Nat.le_div_iff_mul_le hp).2 h1)), if_neg (Nat.not_lt.2 h2)]

theorem size_pos {hdr : List Field} {id : String} {c : Several} {fs : List Field}
    (hwf : WellFormed (followed hdr id c fs)) : ∀ len b size, c = .vector len b size → 0 < size := by
  rintro len b size rfl
  have := sane_suffix hdr _ hwf.1
  simp only [saneFields, saneField, Several.kind, saneKind, Bool.and_eq_true, decide_eq_true_eq] at this
  exact this.1.1

theorem wire_followed (cfg : Cfg) (hdr : List Field) (id : String) (c : Several) (fs : List Field)
    (us : List Val) (wss : List (List Val)) (hl : us.length = hdr.length) :
    wire cfg (followed hdr id c fs) (us ++ [.seq (wss.map .seq)]) =
      wire cfg hdr us ++ (wss.map (wire cfg fs)).flatten := by
  have key : (wss.map Val.seq).flatMap (recordBytes fun ws => wireFields cfg.wire fs ws) =
      (wss.map (wire cfg fs)).flatten := by
    induction wss with
    | nil => rfl
    | cons w wss ih => simp only [List.map_cons, List.flatMap_cons, ih, List.flatten_cons]; rfl
  rw [wire, followed, wireFields_append _ _ _ _ _ hl]
  cases c with
  | array n => simp only [wireFields, wireField, Several.kind, wireKind, key, List.append_nil]; rfl
  | vector len b size => simp only [wireFields, wireField, Several.kind, wireKind, key, List.append_nil]; rfl

/-- C143. A struct of the one list is a struct of the header and as many structs of the records as it
says, and its encoding is theirs, one after the other. -/
theorem C143_valid (cfg : Cfg) (hdr : List Field) (id : String) (c : Several) (fs : List Field)
    (hwf : WellFormed (followed hdr id c fs)) (hfs : WellFormed fs) (vs : List Val) :
    Valid cfg (followed hdr id c fs) vs ↔
      ∃ (us : List Val) (wss : List (List Val)), vs = us ++ [.seq (wss.map .seq)] ∧ Valid cfg hdr us ∧ c.Are cfg (envOf hdr us) wss.length ∧
        (∀ w ∈ wss, Valid cfg fs w) ∧
        wire cfg (followed hdr id c fs) vs = wire cfg hdr us ++ (wss.map (wire cfg fs)).flatten := by
  constructor
  · intro h
    have h1 := (read_iff cfg _ hwf _ [] _).2 ⟨h, rfl⟩
    rw [List.append_nil] at h1
    replace h1 := (C143_read cfg hdr id c fs hwf listIn _).symm.trans h1
    unfold oneByOne at h1
    split at h1
    · rename_i us s1 hu
      split at h1
      · cases h1
      · cases h1
      · rename_i n hn
        split at h1
        · rename_i wss s2 hw
          cases h1
          obtain ⟨v1, e1⟩ := (read_iff cfg hdr (wf_prefix hwf) _ _ _).1 hu
          obtain ⟨hl, v2, e2⟩ := (readMany_iff cfg fs hfs n _ _ _).1 hw
          refine ⟨us, wss, rfl, v1, hl ▸ (count_iff (size_pos hwf) n).1 hn, v2, ?_⟩
          rw [e1, e2, List.append_nil]
        · cases h1
        · cases h1
    · rename_i hne
      exact absurd h1 (hne _ _)
  · rintro ⟨us, wss, rfl, v1, hn, v2, e⟩
    have h1 := (read_iff cfg hdr (wf_prefix hwf) _ (wss.map (wire cfg fs)).flatten _).2 ⟨v1, rfl⟩
    have h2 := (readMany_iff cfg fs hfs wss.length _ [] wss).2 ⟨rfl, v2, rfl⟩
    rw [List.append_nil] at h2
    have h3 : (structCast cfg (followed hdr id c fs)).run
        (wire cfg hdr us ++ (wss.map (wire cfg fs)).flatten) =
          (.done (.ok (us ++ [.seq (wss.map .seq)])), []) := by
      refine (C143_read cfg hdr id c fs hwf listIn _).trans ?_
      unfold oneByOne
      unfold Rd.run at h1
      rw [h1]
      simp only [(count_iff (size_pos hwf) _).2 hn, h2]
      rfl
    exact ((read_iff cfg _ hwf _ _ _).1 h3).1

example : Valid be64 (followed pointsHead "pts" pointsOf pointFields)
    [.int 2, .seq [.seq [.int 10, .int 1], .seq [.int 20, .int 2]]] :=
  (C143_valid be64 pointsHead "pts" pointsOf pointFields (by decide) (by decide) _).2
    ⟨[.int 2], [[.int 10, .int 1], [.int 20, .int 2]], rfl, by decide +kernel, ⟨rfl, by decide, by decide⟩,
      by decide +kernel, by rfl⟩

theorem writeMany_append (cfg : Cfg) (fs : List Field) (hrw : Rewritable cfg fs) (wss : List (List Val))
    (hv : ∀ w ∈ wss, Valid cfg fs w) (before : List Byte) :
    writeMany cfg listOut (wss.map (fs, ·)) before =
      (.done (.ok ()), before ++ (wss.map (wire cfg fs)).flatten) := by
  induction wss generalizing before with
  | nil => simp [writeMany]; rfl
  | cons w wss ih =>
    have h1 : (streamCast cfg fs w).out = (.done (.ok ()), wire cfg fs w) :=
      streamCast_complete hrw (hv w (List.mem_cons_self ..))
    simp only [List.map_cons, writeMany]
    rw [Wr.runOn_listOut, h1]
    simp only
    refine (ih (fun u hu => hv u (List.mem_cons_of_mem _ hu)) _).trans ?_
    simp
    rfl

/-- C143. The one cast writes what the casts of the header and of the records write, one after the
other on one stream, and both ways of reading read it. -/
theorem C143_write_partial (cfg : Cfg) (hdr : List Field) (id : String) (c : Several) (fs : List Field)
    (hrw : Rewritable cfg (followed hdr id c fs)) (hh : Rewritable cfg hdr) (hr : Rewritable cfg fs)
    (us : List Val) (wss : List (List Val)) (hu : Valid cfg hdr us)
    (hn : c.Are cfg (envOf hdr us) wss.length) (hw : ∀ w ∈ wss, Valid cfg fs w) :
    ∃ p, (streamCast cfg (followed hdr id c fs) (us ++ [.seq (wss.map .seq)])).run = (.done (.ok ()), p) ∧
      writeMany cfg listOut ((hdr, us) :: wss.map (fs, ·)) ([] : List Byte) = (.done (.ok ()), p) ∧
      (∀ rest, (structCast cfg (followed hdr id c fs)).run (p ++ rest) =
        (.done (.ok (us ++ [.seq (wss.map .seq)])), rest)) ∧
      ∀ rest, readMany cfg listIn (hdr :: List.replicate wss.length fs) (p ++ rest : List Byte) =
        (.done (.ok (us :: wss)), rest) := by
  have hl : us.length = hdr.length := (fits_length hu.1).symm
  have he := wire_followed cfg hdr id c fs us wss hl
  have hv := (C143_valid cfg hdr id c fs hrw.1 hr.1 _).2 ⟨us, wss, rfl, hu, hn, hw, he⟩
  refine ⟨wire cfg hdr us ++ (wss.map (wire cfg fs)).flatten, ?_, ?_, ?_, ?_⟩
  · rw [← he, Wr.run_eq]; exact streamCast_complete hrw hv
  · have h1 : (streamCast cfg hdr us).out = (.done (.ok ()), wire cfg hdr us) := streamCast_complete hh hu
    simp only [writeMany]
    rw [Wr.runOn_listOut, h1]
    exact writeMany_append cfg fs hr wss hw _
  · intro rest; exact (read_iff cfg _ hrw.1 _ _ _).2 ⟨hv, by rw [he]⟩
  · intro rest
    have h1 := (read_iff cfg hdr hh.1 _ ((wss.map (wire cfg fs)).flatten ++ rest) us).2 ⟨hu, rfl⟩
    have h2 := (readMany_iff cfg fs hr.1 wss.length _ rest wss).2 ⟨rfl, hw, rfl⟩
    unfold Rd.run at h1
    simp only [readMany, List.append_assoc]
    rw [h1]
    simp only [h2]
    rfl

example : ∃ p, (streamCast be64 (followed pointsHead "pts" pointsOf pointFields)
      ([.int 2] ++ [.seq ([[.int 10, .int 1], [.int 20, .int 2]].map .seq)])).run = (.done (.ok ()), p) ∧
    writeMany be64 listOut ((pointsHead, [.int 2]) ::
      [[.int 10, .int 1], [.int 20, .int 2]].map (pointFields, ·)) ([] : List Byte) = (.done (.ok ()), p) := by
  obtain ⟨p, h1, h2, -⟩ := C143_write_partial be64 pointsHead "pts" pointsOf pointFields
    (rewritable_of_checked (by decide +kernel)) (rewritable_of_checked (by decide +kernel))
    (rewritable_of_checked (by decide +kernel)) [.int 2] [[.int 10, .int 1], [.int 20, .int 2]]
    (by decide +kernel) ⟨rfl, by decide, by decide⟩ (by decide +kernel)
  exact ⟨p, h1, h2⟩

end S2S.Props
