import Verif.Lemmas.Again
import Verif.Props.Edit
import Verif.Props.Asked
import Verif.Props.PartSent
/-
C160: a struct that was written is edited and written again.
-/
namespace S2S.Props
open Spec Demo

/-- C160, what is sent: `us` was sent for `vs`. With some fields assigned to (`hit`), the fields assigned
to, those that look at one of them, and those one of these looks at are sent as the struct now says; of
all others the same is sent as before, and nothing of them can fail. -/
theorem C160_sent (cfg : Cfg) (fs : List Field) (hwf : WellFormed fs) (hit : Field → Prop)
    (vs vs' us : List Val) (ht : Typed cfg fs vs) (he : SameBut hit fs vs vs') (hs : Sent cfg fs vs us)
    (us' : List Val) :
    Sent cfg fs vs' us' ↔ Resent (Again fs hit) (SentField cfg fs vs') fs vs' us us' :=
  resent_iff hwf.acceptable ht he hs us'

/-- C160, the bytes of it. -/
theorem C160_write (cfg : Cfg) (fs : List Field) (hwf : WellFormed fs)
    (hc : Everywhere (TypedConsts cfg) fs) (hit : Field → Prop) (vs vs' : List Val)
    (ht : Typed cfg fs vs) (he : SameBut hit fs vs vs') (ht' : Typed cfg fs vs') (p : List Byte)
    (hw : (streamCast cfg fs vs).run = (.done (.ok ()), p)) :
    ∃ us, p = wire cfg fs us ∧ ∀ p', (streamCast cfg fs vs').run = (.done (.ok ()), p') ↔
      ∃ us', Resent (Again fs hit) (SentField cfg fs vs') fs vs' us us' ∧ p' = wire cfg fs us' := by
  obtain ⟨us, hs, rfl⟩ := (C115_sends cfg fs hwf hc vs ht p).1 hw
  refine ⟨us, rfl, fun p' => ?_⟩
  rw [C115_sends cfg fs hwf hc vs' ht']
  simp only [C160_sent cfg fs hwf hit vs vs' us ht he hs]

theorem resent_split {A : Field → Prop} {S : Field → Val → Val → Prop} {pre post : List Field} {f : Field}
    (hf : A f) (ho : ∀ g ∈ pre ++ post, ¬ A g) {ws1 ws2 : List Val} {v : Val} {us us' : List Val}
    (hl : ws1.length = pre.length) (h : Resent A S (pre ++ f :: post) (ws1 ++ v :: ws2) us us') :
    ∃ us1 u us2 u', us = us1 ++ u :: us2 ∧ us' = us1 ++ u' :: us2 ∧ us1.length = pre.length ∧ S f v u' := by
  induction pre generalizing ws1 us us' with
  | nil =>
    have : ws1 = [] := by simpa using hl
    subst this
    simp only [List.nil_append] at h ho
    cases h with
    | @again _ _ _ _ u us2 u' us2' _ h1 h2 =>
      refine ⟨[], u, us2, u', rfl, ?_, rfl, h1⟩
      have : us2' = us2 := by
        clear h1 hl
        induction h2 with
        | nil => rfl
        | again ha _ _ _ => exact absurd ha (ho _ (by simp))
        | kept _ _ ih => rw [ih fun g hg => ho g (by simp [hg])]
      rw [this]; rfl
    | kept h1 _ => exact absurd hf h1
  | cons g pre ih =>
    cases ws1 with
    | nil => simp at hl
    | cons w ws1 =>
      simp only [List.cons_append] at h
      cases h with
      | again ha _ _ => exact absurd ha (ho g (by simp))
      | kept _ h1 =>
        obtain ⟨us1, u, us2, u', rfl, rfl, h2, h3⟩ := ih (fun x hx => ho x (by
          simp only [List.cons_append, List.mem_cons]; exact .inr hx)) (by simpa using hl) h1
        exact ⟨_ :: us1, u, us2, u', rfl, rfl, by simp [h2], h3⟩

/-- C160, one field: a field that looks at none and none looks at is assigned to. What was written changes
in its bytes only. -/
theorem C160_alone (cfg : Cfg) (pre post : List Field) (f : Field) (hwf : WellFormed (pre ++ f :: post))
    (hc : Everywhere (TypedConsts cfg) (pre ++ f :: post)) (hd : fieldDeps f = []) (hun : Unseen post f.id)
    (ws1 ws2 : List Val) (v v' : Val) (hl : ws1.length = pre.length)
    (ht : Typed cfg (pre ++ f :: post) (ws1 ++ v :: ws2)) (hv' : TypedField cfg f v') (p p' : List Byte)
    (hw : (streamCast cfg (pre ++ f :: post) (ws1 ++ v :: ws2)).run = (.done (.ok ()), p))
    (hw' : (streamCast cfg (pre ++ f :: post) (ws1 ++ v' :: ws2)).run = (.done (.ok ()), p')) :
    ∃ l r u u', p = l ++ wireField cfg.wire f u ++ r ∧ p' = l ++ wireField cfg.wire f u' ++ r ∧
      SentField cfg (pre ++ f :: post) (ws1 ++ v' :: ws2) f v' u' := by
  have hun' := unseen_list hwf hun
  have he : ∀ {gs : List Field} {xs : List Val}, gs.length = xs.length → SameBut (fun g => g = f) gs xs xs := by
    intro gs
    induction gs with
    | nil => intro xs h; cases xs with
      | nil => exact .nil
      | cons => simp at h
    | cons g gs ih => intro xs h; cases xs with
      | nil => simp at h
      | cons x xs => exact .same (ih (by simpa using h))
  have hb : SameBut (fun g => g = f) (pre ++ f :: post) (ws1 ++ v :: ws2) (ws1 ++ v' :: ws2) := by
    have hlen := typed_length ht
    clear hwf hc hun hun' ht hw hw'
    induction pre generalizing ws1 with
    | nil =>
      have : ws1 = [] := by simpa using hl
      subst this
      exact .other rfl (he (by simpa using hlen))
    | cons g pre ih =>
      cases ws1 with
      | nil => simp at hl
      | cons w ws1 => exact .same (ih ws1 (by simpa using hl) (by simpa using hlen))
  have t1 := (typed_at hl).1 ht
  obtain ⟨us, rfl, h⟩ := C160_write cfg _ hwf hc (fun g => g = f) _ _ ht hb
    ((typed_at hl).2 ⟨t1.1, hv', t1.2.2⟩) p hw
  obtain ⟨us', h1, rfl⟩ := (h p').1 hw'
  have hnear : ∀ g ∈ pre ++ f :: post, Near (pre ++ f :: post) (fun g => g = f) g → g = f := by
    rintro g hg (hn | ⟨x, _, rfl, hn⟩)
    · exact hn
    · exact absurd hn (hun' g hg)
  have hag : ∀ g ∈ pre ++ post, ¬ Again (pre ++ f :: post) (fun g => g = f) g := by
    intro g hg hA
    have hg' : g ∈ pre ++ f :: post := by
      simp only [List.mem_append, List.mem_cons] at hg ⊢; rcases hg with h | h <;> simp [h]
    rcases hA with hA | ⟨x, hx, hA, hi⟩
    · have := hnear g hg' hA
      subst this
      have hnd := unique_nodup [] _ hwf.2.1
      rw [List.map_append, List.map_cons, List.nodup_append] at hnd
      rcases List.mem_append.1 hg with hg | hg
      · exact hnd.2.2 _ (List.mem_map_of_mem hg) _ (by simp) rfl
      · exact (List.nodup_cons.1 hnd.2.1).1 (List.mem_map_of_mem hg)
    · rw [hnear x hx hA, hd] at hi
      cases hi
  obtain ⟨us1, u, us2, u', rfl, rfl, hl1, h3⟩ := resent_split (.inl (.inl rfl)) hag hl h1
  exact ⟨wire cfg pre us1, wire cfg post us2, u, u', wire_split cfg pre post f us1 us2 u hl1,
    wire_split cfg pre post f us1 us2 u' hl1, h3⟩

/-- A number nobody looks at is assigned to: the length and the data are written as before. -/
example (p' : List Byte) (hw' : (streamCast be64 digitSchema [.int 0, .seq [.int 4], .int 9]).run =
    (.done (.ok ()), p')) :
    ∃ l r u u', [1, 4, 7] = l ++ wireField be64.wire (.plain "x" (.num u8 1) (.cmp .lt i32 10)) u ++ r ∧
      p' = l ++ wireField be64.wire (.plain "x" (.num u8 1) (.cmp .lt i32 10)) u' ++ r ∧
      SentField be64 digitSchema [.int 0, .seq [.int 4], .int 9] (.plain "x" (.num u8 1) (.cmp .lt i32 10)) (.int 9) u' :=
  C160_alone be64 (digitSchema.take 2) [] (.plain "x" (.num u8 1) (.cmp .lt i32 10)) (by decide) (by decide +kernel)
    rfl (by decide) [.int 0, .seq [.int 4]] [] (.int 7) (.int 9) rfl (by decide +kernel)
    (by simp only [TypedField, TypedKind]; decide) _ p' (by rfl) hw'

/-- The data of another length: the length is sent anew, the number as before. -/
example (us us' : List Val) (xs : List Val) (hs : Sent be64 digitSchema [.int 0, .seq [.int 4], .int 7] us)
    (hs' : Sent be64 digitSchema [.int 0, .seq xs, .int 7] us') : us[2]? = us'[2]? := by
  have h := (C160_sent be64 digitSchema (by decide) (fun g => g.id = "d") _ [.int 0, .seq xs, .int 7] us
    (by decide +kernel) (.same (.other rfl (.same .nil))) hs us').1 hs'
  have hx : ¬ Again digitSchema (fun g => g.id = "d") (.plain "x" (.num u8 1) (.cmp .lt i32 10)) := by
    simp [Again, Near, digitSchema, Field.id, fieldDeps, kindDeps, lenDeps]
  cases h with
  | again _ _ h => cases h with
    | again _ _ h => cases h with
      | again hA _ _ => exact absurd hA hx
      | kept _ h => cases h; rfl
    | kept _ h => cases h with
      | again hA _ _ => exact absurd hA hx
      | kept _ h => cases h; rfl
  | kept _ h => cases h with
    | again _ _ h => cases h with
      | again hA _ _ => exact absurd hA hx
      | kept _ h => cases h; rfl
    | kept _ h => cases h with
      | again hA _ _ => exact absurd hA hx
      | kept _ h => cases h; rfl

/-- Also the fields that a field assigned to looks at are looked at again: the length of what is in the
optional, which is not filled, is refused when that has another length, and it is the length that is
reported. -/
theorem C160_near :
    let fs : List Field := [.plain "n" (.num u8 1) .none,
      .maybe "o" (.vec (.scalar u8) (.fromField "n") none) ⟨[], fun _ => true⟩]
    WellFormed fs ∧
    (streamCast be64 fs [.int 1, .present (.seq [.int 5])]).run = (.done (.ok ()), [1, 5]) ∧
    (streamCast be64 fs [.int 1, .present (.seq [.int 5, .int 6])]).run =
      (.done (.error ⟨.foundContradictingLength, "n"⟩), []) := by
  exact ⟨by decide, by rfl, by rfl⟩

/-! ### Why C126 and C146 ask for values that fit -/

/-- C126 fails for values that do not fit: two bytes are read, a number of three bytes is assigned. It
is no value of the field, yet the write succeeds, with what is left of it. -/
theorem C126_fails_wide :
    let fs : List Field := [.plain "y" (.num u32 2) .none]
    SelfConsistent le64 fs ∧ Rewritable le64 fs ∧
    (structCast le64 fs).run [7, 0] = (.done (.ok [.int 7]), []) ∧
    Typed le64 fs [.int 65541] ∧ ¬ IsField le64 (envOf fs [.int 65541]) (.plain "y" (.num u32 2) .none) (.int 65541) ∧
    (streamCast le64 fs [.int 65541]).run = (.done (.ok ()), [5, 0]) := by
  refine ⟨by decide +kernel, rewritable_of_checked (by decide +kernel), by rfl, by decide +kernel, fun h => ?_, by rfl⟩
  have := h.1
  simp only [FitsField, FitsKind] at this
  exact absurd this (by decide)

/-- A length in one byte of a type of two. -/
def byteCount : List Field :=
  [.plain "n" (.num u16 1) .none, .plain "d" (.vec (.scalar u8) (.fromField "n") (some 1000)) .none]

/-- C146 fails for values that do not fit: of 256 elements and a struct that says so, the schema that
fills in is refused, the one that asks emits that there are none. -/
theorem C146_fails_wide :
    let ws : List Val := [.int 256, .seq (List.replicate 256 (.int 1))]
    SelfConsistent le64 byteCount ∧ Rewritable le64 byteCount ∧ Everywhere FreeNumbers byteCount ∧
    Typed le64 byteCount ws ∧
    (streamCast le64 byteCount ws).run = (.done (.error ⟨.validationFailure, "n"⟩), []) ∧
    (streamCast le64 (asking byteCount) ws).run = (.done (.ok ()), 0 :: List.replicate 256 1) := by
  refine ⟨by decide +kernel, rewritable_of_checked (by decide +kernel), by decide +kernel, by decide +kernel,
    by decide +kernel, by decide +kernel⟩

/-! ### C161: filled in, or asked for and checked, of values that fit -/

/-- C161. Of a struct whose values fit the widths and ceilings of their fields, the schema that asks
accepts exactly what the other accepts with the numbers already in place, and emits the same. -/
theorem C161_write (cfg : Cfg) (fs : List Field) (hsc : SelfConsistent cfg fs) (hrw : Rewritable cfg fs)
    (hf : Everywhere FreeNumbers fs) (ws : List Val) (hst : Storable cfg (asking fs) ws) (p : List Byte) :
    (streamCast cfg (asking fs) ws).run = (.done (.ok ()), p) ↔
      (streamCast cfg fs ws).run = (.done (.ok ()), p) ∧ settle (asking fs) ws = settle fs ws :=
  C146_write_partial cfg fs hsc hrw hf ws hst p

/-- C161. What the one that fills in emits, the other emits with the numbers filled in. -/
theorem C161_filled (cfg : Cfg) (fs : List Field) (hsc : SelfConsistent cfg fs) (hrw : Rewritable cfg fs)
    (hf : Everywhere FreeNumbers fs) (vs : List Val) (hst : Storable cfg fs vs) (p : List Byte)
    (h : (streamCast cfg fs vs).run = (.done (.ok ()), p)) :
    (streamCast cfg (asking fs) (settle fs vs)).run = (.done (.ok ()), p) :=
  C146_filled_partial cfg fs hsc hrw hf vs hst p h

/-- 256 elements wrapped to none in one byte are read back as none, and that is what both write. -/
example : (structCast le64 (asking byteCount)).run [0] = (.done (.ok [.int 0, .seq []]), []) ∧
    (streamCast le64 byteCount [.int 0, .seq []]).run = (.done (.ok ()), [0]) ∧
    (streamCast le64 (asking byteCount) [.int 0, .seq []]).run = (.done (.ok ()), [0]) := by
  refine ⟨by rfl, by rfl, ((C161_write le64 byteCount (by decide +kernel) (rewritable_of_checked (by decide +kernel))
    (by decide +kernel) _ (by decide +kernel) _).2 ⟨by rfl, by rfl⟩)⟩

end S2S.Props
