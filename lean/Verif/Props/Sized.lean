import Verif.Lemmas.Sized
import Verif.Lemmas.Made
import Verif.Props.Inst
import Verif.Props.Counted
import Verif.Props.Guarded
/-
C166: records that are given a size, vectors of records that are given no length.
-/
namespace S2S.Props
open Spec Demo

/-! ## C166 -/

/-- C166, reading: as if the records had been given no size. The programs are the same; arrays of
records that are given a length may be in the list (C153). -/
theorem C166_read (cfg : Cfg) (cs : List SzField) (h : reads cs = true) :
    structCastSz cfg cs = structCastCt cfg (asFields cs []) ∧
      structCastSz cfg cs = structCast cfg (asArrays (asFields cs [])) :=
  ⟨readSzFields_eq cfg _ cs h, (readSzFields_eq cfg _ cs h).trans (C153_read cfg _)⟩

/-- C166, writing: as if the records had been given no size, and as if the vectors without a length
were arrays of as many records. The programs are the same; arrays of records that are given a length
may be in the list (C153). -/
theorem C166_write (cfg : Cfg) (cs : List SzField) (he : even cs = true) (hw : writes cs = true)
    (vs : List Val) : streamCastSz cfg cs vs = streamCastCt cfg (asFields cs vs) vs ∧
      (Full (asFields cs vs) vs → streamCastSz cfg cs vs = streamCast cfg (asVectors (asFields cs vs)) vs) := by
  rw [writes, Bool.and_eq_true] at hw
  have := writeSzFields_eq cfg ⟨cs, asVectors (asFields cs vs), vs⟩ cs vs he hw.2 (fieldOk_of_writes hw.1)
  exact ⟨this, fun hf => Eq.trans this (C153_write cfg _ vs hf)⟩

/-- C166: a list that can be read is the same list for all structs. -/
theorem C166_one (cs : List SzField) (h : reads cs = true) (vs : List Val) :
    asFields cs vs = asFields cs [] ∧ even cs = true :=
  ⟨asFields_reads cs vs h, even_of_reads cs h⟩

/-- C166, back again: what was written is read, by the list itself if it can be read, and by the list
with arrays in the place of the vectors without a length. -/
theorem C166_round (cfg : Cfg) (cs : List SzField) (he : even cs = true) (hw : writes cs = true)
    (vs : List Val) (hsc : SelfConsistent cfg (asVectors (asFields cs vs)))
    (hf : Full (asFields cs vs) vs) (hst : Storable cfg (asVectors (asFields cs vs)) vs)
    (p : List Byte) (h : (streamCastSz cfg cs vs).run = (.done (.ok ()), p)) (rest : List Byte) :
    (structCast cfg (asArrays (asFields cs vs))).run (p ++ rest) =
        (.done (.ok (settle (asVectors (asFields cs vs)) vs)), rest) ∧
      (reads cs = true → (structCastSz cfg cs).run (p ++ rest) =
        (.done (.ok (settle (asVectors (asFields cs vs)) vs)), rest)) := by
  rw [(C166_write cfg cs he hw vs).1] at h
  have := C153_round_partial cfg _ hsc vs hf hst p h rest
  rw [C153_read] at this
  refine ⟨this, fun hr => ?_⟩
  rw [(C166_read cfg cs hr).2, ← (C166_one cs hr vs).1]
  exact this

/-- C166: every struct of the types has in each array as many records as its type says. -/
theorem C166_full (cfg : Cfg) (cs : List SzField) (vs : List Val)
    (h : Typed cfg (asArrays (asFields cs vs)) vs) : Full (asFields cs vs) vs :=
  C153_full cfg _ vs h

/-- C166, the other way round: what was read is written as it was, if it says of the arrays that are
given a length how many records they have (C153). -/
theorem C166_rewrite (cfg : Cfg) (cs : List SzField) (hr : reads cs = true) (hw : writes cs = true)
    (hrw : Rewritable cfg (asVectors (asFields cs []))) (inp rest : List Byte) (vs : List Val)
    (h : (structCastSz cfg cs).run inp = (.done (.ok vs), rest))
    (hv : Valid cfg (asVectors (asFields cs [])) vs) :
    ∃ p, inp = p ++ rest ∧ (streamCastSz cfg cs vs).run = (.done (.ok ()), p) := by
  rw [(C166_write cfg cs (even_of_reads cs hr) hw vs).1, asFields_reads cs vs hr]
  rw [(C166_read cfg cs hr).1] at h
  exact C153_rewrite_partial cfg _ hrw inp rest vs h hv

/-- C166: which it does if no array is given a length. -/
theorem C166_rewrite_plain (cfg : Cfg) (cs : List SzField) (hr : reads cs = true) (hw : writes cs = true)
    (ha : asVectors (asFields cs []) = asArrays (asFields cs []))
    (hrw : Rewritable cfg (asArrays (asFields cs []))) (inp rest : List Byte) (vs : List Val)
    (h : (structCastSz cfg cs).run inp = (.done (.ok vs), rest)) :
    ∃ p, inp = p ++ rest ∧ (streamCastSz cfg cs vs).run = (.done (.ok ()), p) := by
  refine C166_rewrite cfg cs hr hw (ha ▸ hrw) inp rest vs h ?_
  rw [(C166_read cfg cs hr).2] at h
  rw [ha]
  exact ((read_iff cfg _ hrw.1 inp rest vs).1 h).1

theorem recordLens_maybe {cs : List SzField} {i s : String} {gs : List SzField} {p : Pred}
    (h : .maybe i (.record gs (some (.fromField s))) p ∈ cs) : s ∈ recordLens cs := by
  induction cs with
  | nil => cases h
  | cons f cs ih =>
    rcases List.mem_cons.1 h with rfl | h'
    · simp [recordLens, SzKind.lenOfRecord]
    · have := ih h'
      cases f <;> simp [recordLens, this]

theorem recordLens_union {cs : List SzField} {i s : String} {gs : List SzField} {d : Deducer} {alts : List SzAlt}
    {c c' : Constraint} (h : .union i d alts c ∈ cs) (ha : .mk (.record gs (some (.fromField s))) c' ∈ alts) :
    s ∈ recordLens cs := by
  induction cs with
  | nil => cases h
  | cons f cs ih =>
    rcases List.mem_cons.1 h with rfl | h'
    · rw [recordLens, List.mem_append]
      exact .inl (List.mem_filterMap.2 ⟨_, ha, rfl⟩)
    · have := ih h'
      cases f <;> simp [recordLens, this]

/-- What the writer of a list does not get past. -/
theorem stuck_field {S : OutStream} {cfg : Cfg} {ctx : SzCtx} {g : SzField}
    (hg : ∀ v, writeSzField cfg ctx g v = Wr.stuck .illTyped) :
    ∀ (fs : List SzField) (vs : List Val), g ∈ fs → ∀ s s',
      (writeSzFields cfg ctx fs vs).runOn S s ≠ (.done (.ok ()), s')
  | [], _, h, _, _ => by cases h
  | _ :: _, [], _, s, s' => by
      intro h
      simp only [writeSzFields, Wr.runOn] at h
      cases h
  | f :: fs, v :: vs, hm, s, s' => by
      intro h
      rw [writeSzFields, andThen_ok] at h
      obtain ⟨s1, h1, h2⟩ := h
      rcases List.mem_cons.1 hm with rfl | hm
      · rw [tag_ok] at h1
        rw [hg v] at h1
        split at h1
        · simp only [Wr.runOn] at h1
          cases h1
        · cases hck : ((g.as v).seen countedArr).constraint.check v with
          | error e => simp only [WrE.checked, hck] at h1; cases h1
          | ok b => cases b <;> simp only [WrE.checked, hck] at h1 <;> cases h1
      · exact stuck_field hg fs vs hm s1 s' h2

/-- C166: if something of fixed size is what a record in an optional or a union takes its length from,
or a record with a length from a field is a field of its own, no struct is written. -/
theorem C166_unwritable (S : OutStream) (cfg : Cfg) (cs : List SzField)
    (h : (∃ id k c, .plain id (.leaf k) c ∈ cs ∧
        ((∃ t w, k = .num t w) ∨ (∃ e n, k = .fbuf e n) ∨ ∃ n, k = .fstr n) ∧
        ((∃ i gs p, .maybe i (.record gs (some (.fromField id))) p ∈ cs) ∨
          ∃ i d alts c gs c', .union i d alts c ∈ cs ∧ .mk (.record gs (some (.fromField id))) c' ∈ alts)) ∨
      ∃ id gs s c, .plain id (.record gs (some (.fromField s))) c ∈ cs)
    (vs : List Val) (s s' : S.State) : (streamCastSz cfg cs vs).runOn S s ≠ (.done (.ok ()), s') := by
  rcases h with ⟨id, k, c, hm, hk, hl⟩ | ⟨id, gs, src, c, hm⟩
  · have hin : id ∈ recordLens cs := by
      rcases hl with ⟨i, gs, p, h⟩ | ⟨i, d, alts, c, gs, c', h, ha⟩
      · exact recordLens_maybe h
      · exact recordLens_union h ha
    refine stuck_field (fun v => ?_) cs vs hm s s'
    rcases hk with ⟨t, w, rfl⟩ | ⟨e, n, rfl⟩ | ⟨n, rfl⟩ <;>
      simp [writeSzField, writeSzKind, Kind.isFixedSized, hin]
  · refine stuck_field (fun v => ?_) cs vs hm s s'
    cases v <;> simp [writeSzField, writeSzKind]

/-! ### Examples -/

/-- A name; if it is not empty, a point that is given the length of the name; a point whose length is
computed. -/
def labelled : List SzField :=
  [.plain "n" (.leaf (.num u8 1)) .none,
   .plain "name" (.leaf (.vec (.scalar u8) (.fromField "n") none)) .none,
   .maybe "p" (.record [.plain "x" (.leaf (.num u8 1)) .none] (some (.fromField "name")))
     ⟨["name"], fun vs => vs != [.seq []]⟩,
   .plain "q" (.record [.plain "y" (.leaf (.num u16 2)) .none] (some (.computed ⟨["n"], fun _ => 99⟩)))
     .none]

def labelledVal : List Val :=
  [.int 2, .seq [.int 5, .int 6], .present (.seq [.int 7]), .seq [.int 0x0102]]

/-- The points of two players, without a count. -/
def players : List SzField :=
  [.plain "a" (.bare [.plain "x" (.leaf (.num u8 1)) .none]) .none,
   .plain "t" (.leaf (.num u8 1)) .none,
   .plain "b" (.bare [.plain "x" (.leaf (.num u8 1)) .none]) .none]

def playersVal (xs : List Int) (t : Int) (ys : List Int) : List Val :=
  [.seq (xs.map fun x => .seq [.int x]), .int t, .seq (ys.map fun x => .seq [.int x])]

example : reads labelled = true ∧ even labelled = true ∧ writes labelled = true ∧
    reads players = false ∧ even players = true ∧ writes players = true := by decide +kernel

example : structCastSz be64 labelled = structCast be64
    [.plain "n" (.num u8 1) .none,
     .plain "name" (.vec (.scalar u8) (.fromField "n") none) .none,
     .maybe "p" (.record [.plain "x" (.num u8 1) .none]) ⟨["name"], fun vs => vs != [.seq []]⟩,
     .plain "q" (.record [.plain "y" (.num u16 2) .none]) .none] :=
  (C166_read be64 labelled (by decide +kernel)).2

example : streamCastSz be64 players (playersVal [1, 2] 9 [3]) = streamCast be64
    [.plain "a" (.arrRec [.plain "x" (.num u8 1) .none] 2) .none,
     .plain "t" (.num u8 1) .none,
     .plain "b" (.arrRec [.plain "x" (.num u8 1) .none] 1) .none] (playersVal [1, 2] 9 [3]) :=
  (C166_write be64 players (by decide +kernel) (by decide +kernel) _).2
    (C166_full be64 players _ (by decide +kernel))

example : asFields labelled labelledVal = asFields labelled [] ∧ even labelled = true :=
  C166_one labelled (by decide +kernel) labelledVal

example (rest : List Byte) : (structCastSz be64 labelled).run ([2, 5, 6, 7, 1, 2] ++ rest) =
    (.done (.ok labelledVal), rest) :=
  (C166_round be64 labelled (by decide +kernel) (by decide +kernel) labelledVal (by decide +kernel)
    (C166_full be64 labelled _ (by decide +kernel)) (by decide +kernel) _ (by rfl) rest).2 (by decide +kernel)

example (rest : List Byte) :
    (structCast be64 (asArrays (asFields players (playersVal [1, 2] 9 [3])))).run ([1, 2, 9, 3] ++ rest) =
      (.done (.ok (playersVal [1, 2] 9 [3])), rest) :=
  (C166_round be64 players (by decide +kernel) (by decide +kernel) (playersVal [1, 2] 9 [3])
    (by decide +kernel) (C166_full be64 players _ (by decide +kernel)) (by decide +kernel) _ (by rfl) rest).1

example : ∃ p, [2, 5, 6, 7, 1, 2] = p ++ [] ∧
    (streamCastSz be64 labelled labelledVal).run = (.done (.ok ()), p) :=
  C166_rewrite_plain be64 labelled (by decide +kernel) (by decide +kernel) rfl (rewritable_of_checked (by decide +kernel))
    _ _ labelledVal (by rfl)

/-- Two points counted by a field, in a record that is given a size. -/
def crate : List SzField :=
  [.plain "box" (.record
    [.plain "n" (.leaf (.num u8 1)) .none,
     .plain "ps" (.arrRec [.plain "x" (.leaf (.num u8 1)) .none] 2 (some (.fromField "n"))) .none]
    (some (.computed ⟨[], fun _ => 0⟩))) .none]

def crateVal : List Val := [.seq [.int 2, .seq [.seq [.int 7], .seq [.int 8]]]]

example : (streamCastSz be64 crate [.seq [.int 0, .seq [.seq [.int 7], .seq [.int 8]]]]).run =
    (.done (.ok ()), [2, 7, 8]) := by rfl

example : ∃ p, [2, 7, 8] = p ++ [] ∧ (streamCastSz be64 crate crateVal).run = (.done (.ok ()), p) :=
  C166_rewrite be64 crate (by decide +kernel) (by decide +kernel) (rewritable_of_checked (by decide +kernel))
    _ _ crateVal (by rfl) (by decide +kernel)

/-- A point in an optional with its length from a number. -/
example (vs : List Val) (p : Pred) (bs : List Byte) : (streamCastSz be64
    [.plain "n" (.leaf (.num u8 1)) .none,
     .maybe "p" (.record [.plain "x" (.leaf (.num u8 1)) .none] (some (.fromField "n"))) p] vs).run ≠
    (.done (.ok ()), bs) :=
  C166_unwritable listOut be64 _ (.inl ⟨"n", _, _, List.mem_cons_self .., .inl ⟨_, _, rfl⟩,
    .inl ⟨"p", _, p, List.mem_cons_of_mem _ (List.mem_singleton_self _)⟩⟩) vs [] bs

/-! ### Where it goes wrong -/

/-- Without a length what was written does not tell the struct: two structs, the same bytes. -/
theorem C166_fails_bounds :
    (streamCastSz be64 players (playersVal [1, 2] 9 [])).run = (.done (.ok ()), [1, 2, 9]) ∧
    (streamCastSz be64 players (playersVal [1] 2 [9])).run = (.done (.ok ()), [1, 2, 9]) ∧
    playersVal [1, 2] 9 [] ≠ playersVal [1] 2 [9] :=
  ⟨rfl, rfl, by simp [playersVal]⟩

end S2S.Props
