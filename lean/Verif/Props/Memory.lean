import Verif.Lemmas.Memory
import Verif.Props.Sizes
/-
C86: what a read costs in memory, copies included. C87: reading with less memory.
-/
namespace S2S.Props
open Spec Demo

/-- C86: with its copies made explicit, a read does to every stream what it did before, and
what it brings in is what `resize` is asked for. -/
theorem C86_same (cfg : Cfg) (fs : List Field) (S : InStream) (s : S.State) :
    (structCast cfg fs).runOn S s =
      (((memCast cfg fs).runOn S s {}).1, ((memCast cfg fs).runOn S s {}).2.1) ∧
    ((memCast cfg fs).runOn S s {}).2.2.grown = ((structCast cfg fs).allocsOn S s).sum := by
  have := Mem.runOn_erase S (memCast cfg fs) s {}
  rw [erase_memCast] at this
  exact ⟨this.1, by rw [this.2, Nat.zero_add]⟩

/-- C86: however a read ends, no more was copied than so many times what `resize` was asked
for as the schema nests, and never was more than twice that in use. -/
theorem C86_bounded (cfg : Cfg) (fs : List Field) (S : InStream) (s : S.State) :
    ((memCast cfg fs).runOn S s {}).2.2.copied ≤
      (copiesFields fs + 1) * ((structCast cfg fs).allocsOn S s).sum ∧
    ((memCast cfg fs).runOn S s {}).2.2.peak ≤ 2 * ((structCast cfg fs).allocsOn S s).sum := by
  obtain ⟨A, E, h1, h2, h3, h4, _⟩ := Mem.ends_runOn S (costs_memCast cfg fs {}) s
  rw [(C86_same cfg fs S s).2, Nat.zero_add] at h1
  rw [Nat.zero_add] at h2
  simp only [Nat.zero_max, Nat.zero_add] at h4
  rw [h1, h2]
  exact ⟨h3, h4⟩

theorem peak_memCast (cfg : Cfg) (fs : List Field) (u : Usage) :
    (memCast cfg fs).Ends (fun u' o => ∀ vs, o = .done (.ok vs) →
      u.live + 2 * heapFields fs vs ≤ u'.peak) u := by
  refine Mem.ends_bind ((costs_memFields cfg (dfltEnv fs) fs u).mono ?_)
  rintro u1 o ⟨A, E, h1, h2, h3, h4, h5⟩
  match o with
  | .stuck w => exact fun v hv => by cases hv
  | .done (.error e) => exact fun v hv => by cases hv
  | .done (.ok vs) =>
    obtain ⟨hl, rfl, rfl⟩ := h5 vs rfl
    intro ws hw
    cases hw
    simp only [Usage.copy, Usage.drop]
    omega

/-- C86: after a success what is in use is what the result holds, and that is what `resize`
was asked for; twice as much was in use just before; and what was copied is known from
the result. -/
theorem C86_success (cfg : Cfg) (fs : List Field) (S : InStream) (s s' : S.State) (vs : List Val)
    (h : (structCast cfg fs).runOn S s = (.done (.ok vs), s')) :
    ((memCast cfg fs).runOn S s {}).2.2 =
      { grown := heapFields fs vs, copied := copiedFields fs vs + heapFields fs vs,
        live := heapFields fs vs, peak := 2 * heapFields fs vs } ∧
    ((structCast cfg fs).allocsOn S s).sum = heapFields fs vs := by
  have hs := C86_same cfg fs S s
  rw [h] at hs
  have ho : ((memCast cfg fs).runOn S s {}).1 = .done (.ok vs) := (congrArg Prod.fst hs.1).symm
  obtain ⟨A, E, h1, h2, h3, h4, h5⟩ := Mem.ends_runOn S (costs_memCast cfg fs {}) s
  obtain ⟨h6, rfl, rfl⟩ := h5 vs ho
  have h7 := Mem.ends_runOn S (peak_memCast cfg fs {}) s vs ho
  have hg := hs.2
  generalize ((memCast cfg fs).runOn S s {}).2.2 = u at *
  obtain ⟨g, c, l, p⟩ := u
  simp only [Nat.zero_add, Nat.zero_max] at *
  subst h1 h2 h6
  refine ⟨?_, hg.symm⟩
  rw [Usage.mk.injEq]
  exact ⟨rfl, rfl, rfl, by omega⟩

/-- C86, with C72: memory, copies included, is linear in the bytes delivered. -/
theorem C86_linear (cfg : Cfg) (fs : List Field) (hs : saneFields fs = true)
    (hso : solidFields fs = true) (S : InStream) (s : S.State) :
    ((memCast cfg fs).runOn S s {}).2.2.grown + ((memCast cfg fs).runOn S s {}).2.2.copied ≤
      (copiesFields fs + 2) *
        (memoryFields fs * deliveredOn S (structCast cfg fs) s + aheadFields cfg fs) ∧
    ((memCast cfg fs).runOn S s {}).2.2.peak ≤
      2 * (memoryFields fs * deliveredOn S (structCast cfg fs) s + aheadFields cfg fs) := by
  have h1 := C72_memory cfg fs hs hso S s
  have h2 := C86_bounded cfg fs S s
  have h3 := (C86_same cfg fs S s).2
  generalize memoryFields fs * deliveredOn S (structCast cfg fs) s + aheadFields cfg fs = M at *
  have h4 := Nat.mul_le_mul_left (copiesFields fs + 2) h1
  rw [h3]
  generalize ((structCast cfg fs).allocsOn S s).sum = A at *
  have h5 : (copiesFields fs + 2) * A = (copiesFields fs + 1) * A + A := by
    rw [← Nat.succ_mul]
  exact ⟨by omega, by omega⟩

/-! ### The bound is met -/

/-- A string inside `d` records. -/
def tower : Nat → List Field
  | 0 => [.plain "n" (.num u32 4) .none, .plain "s" (.vec (.scalar u8) (.fromField "n") none) .none]
  | d + 1 => [.plain "r" (.record (tower d)) .none]

theorem tower_copied : ∀ (d : Nat) (vs : List Val),
    copiedFields (tower d) vs = 2 * d * heapFields (tower d) vs
  | 0, vs => by
      rcases vs with _ | ⟨v, _ | ⟨w, vs⟩⟩ <;>
        simp [tower, copiedFields, copiedField, copiedKind]
  | d + 1, [] => by simp [tower, copiedFields, heapFields]
  | d + 1, v :: vs => by
      have ih := tower_copied d
      cases v <;> simp [tower, copiedFields, heapFields, copiedField, heapField, copiedKind, heapKind]
      rename_i ws
      rw [ih ws, ← Nat.add_mul]
      congr 1

/-- C86: what is read `d` records deep is copied `2 d + 1` times, whatever the bytes. -/
theorem C86_depth (cfg : Cfg) (d : Nat) (S : InStream) (s s' : S.State) (vs : List Val)
    (h : (structCast cfg (tower d)).runOn S s = (.done (.ok vs), s')) :
    ((memCast cfg (tower d)).runOn S s {}).2.2.copied =
      (2 * d + 1) * ((structCast cfg (tower d)).allocsOn S s).sum := by
  obtain ⟨h1, h2⟩ := C86_success cfg (tower d) S s s' vs h
  rw [h1, h2, tower_copied, Nat.add_mul, Nat.one_mul]

theorem tower_copies (d : Nat) : copiesFields (tower d) = 2 * d := by
  induction d with
  | zero => rfl
  | succ d ih => simp only [tower, copiesFields, copiesField, copiesKind, ih]; omega

example : (structCast be64 (tower 3)).run [0, 0, 0, 2, 7, 8] =
    (.done (.ok [.seq [.seq [.seq [.int 2, .seq [.int 7, .int 8]]]]]), []) := by rfl
/-- Two bytes, three records deep: copied seven times. -/
example : ((memCast be64 (tower 3)).runOn listIn [0, 0, 0, 2, 7, 8] {}).2.2 = ⟨2, 14, 2, 4⟩ := by rfl
example := C86_depth be64 3 listIn [0, 0, 0, 2, 7, 8] [] _ (by rfl)

/-- Two points, as in `C72`: the vector and the three bytes in one of them. The vector is
copied once, the bytes three times. -/
example : ((memCast be64 trackSchema).runOn listIn [0, 0, 0, 2, 3, 7, 8, 9, 0] {}).2.2 =
    ⟨67, 67 + 2 * 3, 67, 134⟩ := by rfl
/-- Cut short in the second: no copy of the vector. -/
example : ((memCast be64 trackSchema).runOn listIn [0, 0, 0, 2, 3, 7, 8, 9] {}).2.2 =
    ⟨67, 6, 67, 70⟩ := by rfl
example := C86_linear be64 trackSchema (by decide) (by decide) listIn [0, 0, 0, 2, 3, 7, 8, 9]

/-- An optional string: copied into the optional and with the list. -/
def optText : List Field :=
  [.plain "n" (.num u8 1) .none,
   .maybe "s" (.vec (.scalar u8) (.fromField "n") none) ⟨["n"], fun vs => vs != [.int 0]⟩]
example : copiesFields optText = 1 := by rfl
example : ((memCast be64 optText).runOn listIn [3, 7, 8, 9] {}).2.2 = ⟨3, 6, 3, 6⟩ := by rfl
example := C86_success be64 optText listIn [3, 7, 8, 9] [] _ (by rfl)

/-! ## C87 -/

/-- C87: an allocator that fails, whenever and however, has no influence on a read but to
end it. If it does, the stream has seen the first calls of the read and nothing else. -/
theorem C87_any_allocator (cfg : Cfg) (fs : List Field) (S : InStream) (M : Allocator)
    (s : S.State) (m : M.State) :
    (((memCast cfg fs).tryOn S M s m).1 = none ∨
      (memCast cfg fs).tryOn S M s m =
        (some ((structCast cfg fs).runOn S s).1, ((structCast cfg fs).runOn S s).2)) ∧
    ∃ calls rest, (structCast cfg fs).callsOn S s = calls ++ rest ∧
      ((memCast cfg fs).tryOn S M s m).2 = calls.foldl (fun s n => (S.read s n).2) s := by
  obtain ⟨h1, ⟨rest, h2⟩, h3⟩ := Mem.tryOn_erase S M (memCast cfg fs) s m
  rw [erase_memCast] at h2 h3
  exact ⟨h3.imp id fun h => Prod.ext h.1 h.2.1, _, rest, h2.symm, h1⟩

/-- C87: with so many bytes of memory, a read gives what it gives with any amount if that
holds at most half of them, and otherwise ends in `std::bad_alloc`, although the result
itself may fit. -/
theorem C87_needed (cfg : Cfg) (fs : List Field) (S : InStream) (s s' : S.State) (vs : List Val)
    (h : (structCast cfg fs).runOn S s = (.done (.ok vs), s')) (limit : Nat) :
    ((memCast cfg fs).tryOn S (bounded limit) s (0 : Nat)).1 =
      if 2 * heapFields fs vs ≤ limit then some (.done (.ok vs)) else none := by
  have h1 := Mem.tryOn_bounded S limit (memCast cfg fs) s {} (Nat.zero_le _)
  have h2 := (C86_success cfg fs S s s' vs h).1
  have h3 := (C86_same cfg fs S s).1
  rw [h] at h3
  rw [h2, ← congrArg Prod.fst h3] at h1
  exact h1

/-- C87: enough memory for every input of a given length, whatever it contains. -/
theorem C87_enough (cfg : Cfg) (fs : List Field) (hs : saneFields fs = true)
    (hso : solidFields fs = true) (inp : List Byte) (limit : Nat)
    (hl : 2 * (memoryFields fs * inp.length + aheadFields cfg fs) ≤ limit) :
    (memCast cfg fs).tryOn listIn (bounded limit) inp (0 : Nat) =
      (some ((structCast cfg fs).runOn listIn inp).1, ((structCast cfg fs).runOn listIn inp).2) := by
  have h1 := Mem.tryOn_bounded listIn limit (memCast cfg fs) inp {} (Nat.zero_le _)
  have h2 := (C86_bounded cfg fs listIn inp).2
  have h3 := (C72_input cfg fs hs hso inp).1
  rw [if_pos (by omega)] at h1
  refine (C87_any_allocator cfg fs listIn (bounded limit) inp (0 : Nat)).1.resolve_left fun h => ?_
  rw [show ((memCast cfg fs).tryOn listIn (bounded limit) inp (0 : Nat)).1 =
    some ((memCast cfg fs).runOn listIn inp {}).1 from h1] at h
  cases h

/-- Three bytes of text take six of memory. With five, all of the input is consumed and
there is no result. -/
example : (memCast be64 optText).tryOn listIn (bounded 5) [3, 7, 8, 9] (0 : Nat) = (none, []) := by rfl
example : ((memCast be64 optText).tryOn listIn (bounded 6) [3, 7, 8, 9] (0 : Nat)).1 =
    some (.done (.ok [.int 3, .present (.seq [.int 7, .int 8, .int 9])])) :=
  C87_needed be64 optText listIn [3, 7, 8, 9] []
    [.int 3, .present (.seq [.int 7, .int 8, .int 9])] (by rfl) 6
/-- Two bytes do not suffice for the text itself; it is not read. -/
example : (memCast be64 optText).tryOn listIn (bounded 2) [3, 7, 8, 9] (0 : Nat) = (none, [7, 8, 9]) := by rfl
example := C87_any_allocator be64 optText listIn (bounded 2) [3, 7, 8, 9] (0 : Nat)
example (inp : List Byte) (h : inp.length ≤ 1000) :=
  C87_enough be64 trackSchema (by decide) (by decide) inp 67174864 (by
    have h1 : memoryFields trackSchema = 33 := by decide
    have h2 : aheadFields be64 trackSchema = 33554432 := by decide
    rw [h1, h2]; omega)

example : ((memCast be64 optText).runOn listIn [3, 7, 8, 9] {}).2.2.grown = 3 :=
  (C86_same be64 optText listIn [3, 7, 8, 9]).2.trans rfl
/-- Whatever the stream does. -/
example (S : InStream) (s : S.State) : ((memCast be64 optText).runOn S s {}).2.2.copied ≤
    2 * ((structCast be64 optText).allocsOn S s).sum := (C86_bounded be64 optText S s).1

end S2S.Props
