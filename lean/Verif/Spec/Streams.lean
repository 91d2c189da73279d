import Verif.Model.Stream
/-
What is asked of a stream, and the streams found in /repo.
-/
namespace S2S.Spec

/-- The documented contract of an input stream (/repo/docs/streams.md, "What a
stream must provide", "Failure is reported by going bad"): a healthy stream with
enough bytes delivers them in order; one without goes bad; a bad one stays bad
and reports it after every access. `content`: the bytes not yet read; `good`:
`operator bool`. Nothing is said about what a failed read consumes. -/
structure InContract (S : InStream) (content : S.State → List Byte) (good : S.State → Prop) :
    Prop where
  deliver : ∀ s n, good s → n ≤ (content s).length →
    ∃ s', S.read s n = (some ((content s).take n), s') ∧ good s' ∧ content s' = (content s).drop n
  exhaust : ∀ s n, good s → (content s).length < n → ∃ s', S.read s n = (none, s') ∧ ¬ good s'
  sticky : ∀ s n, ¬ good s → ∃ s', S.read s n = (none, s') ∧ ¬ good s'

/-- `bytes` is what a sequence of successful reads took from the stream between
two of its states. -/
inductive Delivered (S : InStream) : S.State → List Byte → S.State → Prop
  | nil (s) : Delivered S s [] s
  | cons {s n bs s' rest s''} : S.read s n = (some bs, s') → Delivered S s' rest s'' →
      Delivered S s (bs ++ rest) s''

/-- `bytes` is what a sequence of accepted writes put on the stream between two
of its states. -/
inductive Accepted (S : OutStream) : S.State → List Byte → S.State → Prop
  | nil (s) : Accepted S s [] s
  | cons {s bs s' rest s''} : S.write s bs = (true, s') → Accepted S s' rest s'' →
      Accepted S s (bs ++ rest) s''

/-- The contract of an output stream that may run out of room or break at any
moment: `content` is what it has received so far. An accepted write appends all
bytes; a refused one appends some initial part of them (possibly none, possibly
all), and the stream stays bad. -/
structure OutContract (S : OutStream) (content : S.State → List Byte) (good : S.State → Prop) :
    Prop where
  accept : ∀ s bs s', S.write s bs = (true, s') →
    good s ∧ good s' ∧ content s' = content s ++ bs
  refuse : ∀ s bs s', S.write s bs = (false, s') →
    ¬ good s' ∧ ∃ part, part <+: bs ∧ content s' = content s ++ part

/-- A stream that has room for so many bytes: it accepts as long as they fit. -/
structure HasRoom (S : OutStream) (good : S.State → Prop) (room : S.State → Nat) : Prop where
  fits : ∀ s bs, good s → bs.length ≤ room s →
    ∃ s', S.write s bs = (true, s') ∧ good s' ∧ room s' + bs.length = room s

/-- A stream that has room for so many bytes and does nothing else of its own: a write
that fits is appended, one that does not is refused and the stream goes bad. How much
of a refused write it takes is left open. -/
structure Capacity (S : OutStream) (content : S.State → List Byte) (good : S.State → Prop)
    (room : S.State → Nat) : Prop where
  accept : ∀ s bs, good s → bs.length ≤ room s → ∃ s', S.write s bs = (true, s') ∧ good s' ∧
    content s' = content s ++ bs ∧ room s' = room s - bs.length
  refuse : ∀ s bs, good s → room s < bs.length → ∃ s', S.write s bs = (false, s') ∧ ¬ good s'

/-- The `byte_stream` of /repo/docs/streams.md 60-92 as an input: buffer, position
and the `ok` flag. A failed read consumes nothing; the flag is never reset. -/
abbrev byteStreamIn : InStream where
  State := List Byte × Nat × Bool
  read s n :=
    if s.2.1 + n > s.1.length then (none, (s.1, s.2.1, false))
    else (if s.2.2 then some ((s.1.drop s.2.1).take n) else none, (s.1, s.2.1 + n, s.2.2))
  len := by
    intro s n bs s' h
    split at h
    · simp at h
    · rename_i hn
      simp only [Prod.mk.injEq] at h
      obtain ⟨h, _⟩ := h
      split at h
      · cases h
        simp
        omega
      · cases h

/-- `memstream` (/repo/test/utils/constexpr_memstream.hpp 15-62) as an input: the
bytes not yet read and `is_bad`. The read copies byte by byte and stops when the
buffer ends, so a failed read consumes what was left. -/
abbrev memstreamIn : InStream where
  State := List Byte × Bool
  read s n :=
    if n ≤ s.1.length then (if s.2 then none else some (s.1.take n), (s.1.drop n, s.2))
    else (none, ([], true))
  len := by
    intro s n bs s' h
    split at h
    · simp only [Prod.mk.injEq] at h
      obtain ⟨h, _⟩ := h
      split at h
      · cases h
      · cases h
        simp
        omega
    · simp at h

/-- `std::istream::read`: a stream that is not good extracts nothing; a short read
extracts what there is and sets `eofbit|failbit`. (A C++ library fact, not code of
/repo.) -/
abbrev stdIn : InStream where
  State := List Byte × Bool
  read s n :=
    if s.2 then
      if n ≤ s.1.length then (some (s.1.take n), (s.1.drop n, true)) else (none, ([], false))
    else (none, s)
  len := by
    intro s n bs s' h
    split at h
    · split at h
      · simp only [Prod.mk.injEq, Option.some.injEq] at h
        obtain ⟨rfl, _⟩ := h
        simp
        omega
      · simp at h
    · simp at h

theorem byteStreamIn_contract :
    InContract byteStreamIn (fun s => s.1.drop s.2.1) (fun s => s.2.2 = true ∧ s.2.1 ≤ s.1.length) where
  deliver := by
    rintro ⟨buf, pos, ok⟩ n ⟨h1, h2⟩ hn
    simp only [List.length_drop] at h1 h2 hn
    subst h1
    refine ⟨(buf, pos + n, true), ?_, ⟨rfl, ?_⟩, ?_⟩
    · simp only [byteStreamIn]
      rw [if_neg (by omega)]
      rfl
    · simp only; omega
    · simp
  exhaust := by
    rintro ⟨buf, pos, ok⟩ n ⟨h1, h2⟩ hn
    simp only [List.length_drop] at h1 h2 hn
    refine ⟨(buf, pos, false), ?_, by simp⟩
    simp only [byteStreamIn]
    rw [if_pos (by omega)]
  sticky := by
    rintro ⟨buf, pos, ok⟩ n h
    simp only [byteStreamIn]
    split
    · exact ⟨_, rfl, by simp⟩
    · refine ⟨(buf, pos + n, ok), ?_, ?_⟩
      · cases ok with
        | false => rfl
        | true => simp only [true_and] at h; omega
      · simp only at h ⊢
        rintro ⟨rfl, h2⟩
        exact h ⟨rfl, by omega⟩

theorem memstreamIn_contract : InContract memstreamIn (fun s => s.1) (fun s => s.2 = false) where
  deliver := by
    rintro ⟨buf, bad⟩ n h1 hn
    simp only at h1 hn
    subst h1
    exact ⟨(buf.drop n, false), by simp [memstreamIn, hn], rfl, rfl⟩
  exhaust := by
    rintro ⟨buf, bad⟩ n h1 hn
    simp only at hn
    refine ⟨([], true), ?_, by simp⟩
    simp only [memstreamIn]
    rw [if_neg (by omega)]
  sticky := by
    rintro ⟨buf, bad⟩ n h
    simp only [Bool.not_eq_false] at h
    subst h
    simp only [memstreamIn]
    split
    · exact ⟨(buf.drop n, true), rfl, by simp⟩
    · exact ⟨_, rfl, by simp⟩

theorem stdIn_contract : InContract stdIn (fun s => s.1) (fun s => s.2 = true) where
  deliver := by
    rintro ⟨buf, ok⟩ n h1 hn
    simp only at h1 hn
    subst h1
    exact ⟨(buf.drop n, true), by simp [stdIn, hn], rfl, rfl⟩
  exhaust := by
    rintro ⟨buf, ok⟩ n h1 hn
    simp only at h1 hn
    subst h1
    refine ⟨([], false), ?_, by simp⟩
    simp only [stdIn, if_true]
    rw [if_neg (by omega)]
  sticky := by
    rintro ⟨buf, ok⟩ n h
    simp only [Bool.not_eq_true] at h
    subst h
    exact ⟨(buf, false), by simp [stdIn], by simp⟩

/-- `memstream` as an output: room left, bytes received, `is_bad`. A write copies
byte by byte until the buffer is full. (Reading of a buffer of `N` bytes with
`write_idx` bytes used.) -/
abbrev memstreamOut : OutStream where
  State := Nat × List Byte × Bool
  write s bs :=
    if bs.length ≤ s.1 then (!s.2.2, (s.1 - bs.length, s.2.1 ++ bs, s.2.2))
    else (false, (0, s.2.1 ++ bs.take s.1, true))

theorem memstreamOut_contract :
    OutContract memstreamOut (fun s => s.2.1) (fun s => s.2.2 = false) where
  accept := by
    rintro ⟨room, got, bad⟩ bs s' h
    simp only [memstreamOut] at h
    split at h
    · simp only [Prod.mk.injEq, Bool.not_eq_true'] at h
      obtain ⟨rfl, rfl⟩ := h
      exact ⟨rfl, rfl, rfl⟩
    · simp at h
  refuse := by
    rintro ⟨room, got, bad⟩ bs s' h
    simp only [memstreamOut] at h
    split at h
    · simp only [Prod.mk.injEq, Bool.not_eq_false'] at h
      obtain ⟨rfl, rfl⟩ := h
      exact ⟨by simp, bs, List.prefix_refl _, rfl⟩
    · simp only [Prod.mk.injEq, true_and] at h
      subst h
      exact ⟨by simp, bs.take room, List.take_prefix _ _, rfl⟩

theorem memstreamOut_room : HasRoom memstreamOut (fun s => s.2.2 = false) (fun s => s.1) where
  fits := by
    rintro ⟨room, got, bad⟩ bs rfl hb
    simp only at hb
    exact ⟨(room - bs.length, got ++ bs, false), by simp [memstreamOut, hb], rfl, by simp only; omega⟩

theorem memstreamOut_capacity :
    Capacity memstreamOut (fun s => s.2.1) (fun s => s.2.2 = false) (fun s => s.1) where
  accept := by
    rintro ⟨room, got, bad⟩ bs rfl hb
    simp only at hb
    exact ⟨(room - bs.length, got ++ bs, false), by simp [memstreamOut, hb], rfl, rfl, rfl⟩
  refuse := by
    rintro ⟨room, got, bad⟩ bs rfl hb
    simp only at hb
    refine ⟨(0, got ++ bs.take room, true), ?_, by simp⟩
    simp only [memstreamOut]
    rw [if_neg (by omega)]

/-- A buffer of fixed capacity that takes a write as a whole or not at all: room left,
bytes received, healthy or not. (Not in /repo; streams are the user's.) -/
abbrev wholeOut : OutStream where
  State := Nat × List Byte × Bool
  write s bs :=
    if s.2.2 && bs.length ≤ s.1 then (true, (s.1 - bs.length, s.2.1 ++ bs, true))
    else (false, (s.1, s.2.1, false))

theorem wholeOut_capacity :
    Capacity wholeOut (fun s => s.2.1) (fun s => s.2.2 = true) (fun s => s.1) where
  accept := by
    rintro ⟨room, got, ok⟩ bs rfl hb
    simp only at hb
    exact ⟨(room - bs.length, got ++ bs, true), by simp [wholeOut, hb], rfl, rfl, rfl⟩
  refuse := by
    rintro ⟨room, got, ok⟩ bs rfl hb
    simp only at hb
    refine ⟨(room, got, false), ?_, by simp⟩
    simp only [wholeOut]
    rw [if_neg (by simp; omega)]

end S2S.Spec
