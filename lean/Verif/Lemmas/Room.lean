import Verif.Spec.Room
import Verif.Lemmas.Unsent
import Verif.Lemmas.OnStream
import Verif.Lemmas.WriteTyped
/-
Writing to a stream with room for so many bytes.
-/
namespace S2S
open Spec Props

/-- A stream with room for so many bytes takes everything if it fits, and refuses at some
point if it does not. -/
theorem Wr.runOn_capacity {S : OutStream} {content : S.State → List Byte} {good : S.State → Prop}
    {room : S.State → Nat} (hC : Capacity S content good room) {P : α → Prop} {w : Wr α}
    (hs : w.Short P) (s : S.State) (hg : good s) :
    (w.out.2.length ≤ room s ∧ ∃ s', w.runOn S s = (w.out.1, s') ∧ good s' ∧
      content s' = content s ++ w.out.2 ∧ room s' = room s - w.out.2.length) ∨
    (room s < w.out.2.length ∧ ∃ a s', P a ∧ w.runOn S s = (.done a, s') ∧ ¬ good s') := by
  induction w generalizing s with
  | ret a => exact .inl ⟨by simp [Wr.out], s, rfl, hg, by simp [Wr.out], by simp [Wr.out]⟩
  | stuck w => exact .inl ⟨by simp [Wr.out], s, rfl, hg, by simp [Wr.out], by simp [Wr.out]⟩
  | write bs k ih =>
    obtain ⟨⟨a, h1, h2⟩, h3⟩ := hs
    simp only [Wr.out, List.length_append]
    by_cases hb : bs.length ≤ room s
    · obtain ⟨s1, hw, hg1, hc1, hr1⟩ := hC.accept s bs hg hb
      rcases ih true h3 s1 hg1 with ⟨h4, s', h5, h6, h7, h8⟩ | ⟨h4, a, s', h5, h6, h7⟩
      · refine .inl ⟨by omega, s', by simp only [Wr.runOn, hw, h5], h6, ?_, by omega⟩
        rw [h7, hc1, List.append_assoc]
      · exact .inr ⟨by omega, a, s', h5, by simp only [Wr.runOn, hw, h6], h7⟩
    · obtain ⟨s1, hw, hg1⟩ := hC.refuse s bs hg (by omega)
      exact .inr ⟨by omega, a, s1, h2, by simp only [Wr.runOn, hw, h1], hg1⟩

/-- The field of a list that does not fit, by the writer. -/
theorem exhausted_fields {cfg : Cfg} {S : OutStream} {content : S.State → List Byte}
    {good : S.State → Prop} {room : S.State → Nat} (hC : Capacity S content good room) (ctx : WCtx)
    (id : String) (fs : List Field) (vs : List Val) (s : S.State) (hg : good s) :
    ((writeFields cfg ctx fs vs).runOn S s).1 = .done (.error ⟨.bufferExhaustion, id⟩) ↔
      ∃ pre f post vpre v vpost p, fs = pre ++ f :: post ∧ vs = vpre ++ v :: vpost ∧ f.id = id ∧
        pre.length = vpre.length ∧
        (writeFields cfg ctx pre vpre).Emits p () ∧ p.length ≤ room s ∧
        room s < p.length + (Wr.out (writeStep cfg ctx f v)).2.length := by
  induction fs generalizing vs s with
  | nil =>
    refine iff_of_false ?_ (by simp)
    cases vs <;> simp [writeFields, Wr.runOn, WrE.ok]
  | cons f fs ih =>
    cases vs with
    | nil => refine iff_of_false ?_ (by simp); simp [writeFields, Wr.runOn]
    | cons v vs =>
      have hshort : WrE.ShortE (fun e => e = ⟨.bufferExhaustion, f.id⟩) (writeStep cfg ctx f v) := by
        unfold writeStep
        refine WrE.short_mapErr (P := fun e => e = .bufferExhaustion) ?_ (fun e h => by rw [h])
        split
        · exact wshort_writeField cfg f ctx v
        · exact wshort_checked _ _ (wshort_writeField cfg f ctx v)
      rw [writeFields_cons, WrE.runOn_andThen]
      constructor
      · intro h
        rcases Wr.runOn_capacity hC hshort s hg with ⟨h1, s', h2, h3, -, h4⟩ | ⟨h1, a, s', h2, h3, -⟩
        · rw [h2] at h
          rcases ho : Wr.out (writeStep cfg ctx f v) with ⟨(e | a) | w, q⟩
          · rw [ho] at h
            simp only [Outcome.done.injEq, Except.error.injEq] at h
            subst h
            have := fine_writeFields cfg [f] ctx [v] _ q (by
              rw [writeFields_cons, WrE.out_andThen, ho])
            obtain ⟨g, -, -, hr⟩ := this
            exact (hr.2.1 rfl).elim
          · rw [ho] at h h1 h4
            simp only at h
            obtain ⟨pre, g, post, vpre, w, vpost, p, rfl, rfl, hid, hl, h5, h6, h7⟩ := (ih vs s' h3).1 h
            refine ⟨f :: pre, g, post, v :: vpre, w, vpost, q ++ p, rfl, rfl, hid, by simp [hl],
              emits_writeFields_cons.2 ⟨q, p, rfl, ho, h5⟩, ?_, ?_⟩
            · simp only [List.length_append] at *; omega
            · simp only [List.length_append] at *; omega
          · rw [ho] at h
            simp at h
        · rw [h3] at h
          rcases a with e | a
          · dsimp only at h2
            subst h2
            simp only [Outcome.done.injEq, Except.error.injEq, CastError.mk.injEq, true_and] at h
            exact ⟨[], f, fs, [], v, vs, [], rfl, rfl, h, rfl, by
              simp only [writeFields]; exact (WrE.emits_ok _ _ _).2 ⟨rfl, rfl⟩, by simp, by simpa using h1⟩
          · exact h2.elim
      · rintro ⟨pre, g, post, vpre, w, vpost, p, h0, h0', hid, hl, h5, h6, h7⟩
        cases pre with
        | nil =>
          cases vpre with
          | cons _ _ => simp at hl
          | nil =>
            cases h0
            cases h0'
            have : p = [] := by
              simp only [writeFields, WrE.emits_ok] at h5
              exact h5.1
            subst this
            rcases Wr.runOn_capacity hC hshort s hg with ⟨h1, -⟩ | ⟨-, a, s', h2, h3, -⟩
            · simp at h7; omega
            · rw [h3]
              rcases a with e | a
              · dsimp only at h2
                subst h2
                simp [hid]
              · exact h2.elim
        | cons a pre =>
          cases vpre with
          | nil => simp at hl
          | cons b vpre =>
            simp only [List.cons_append, List.cons.injEq] at h0 h0'
            obtain ⟨rfl, rfl⟩ := h0
            obtain ⟨rfl, rfl⟩ := h0'
            obtain ⟨q, t, rfl, h8, h9⟩ := emits_writeFields_cons.1 h5
            simp only [List.length_append] at h6 h7
            rcases Wr.runOn_capacity hC hshort s hg with ⟨h1, s', h2, h3, -, h4⟩ | ⟨h1, -⟩
            · rw [h2, h8]
              rw [h8] at h4
              simp only at h4 ⊢
              exact (ih _ s' h3).2 ⟨pre, g, post, vpre, w, vpost, t, rfl, rfl, hid,
                by simpa using hl, h9, by omega, by omega⟩
            · rw [h8] at h1
              simp only at h1
              omega

theorem everyFields_sub {P : List Field → Prop} {fs : List Field} (h : EveryFields P fs)
    {f : Field} (hf : f ∈ fs) : EveryField P f := by
  induction fs with
  | nil => cases hf
  | cons g fs ih =>
    rw [EveryFields] at h
    rcases List.mem_cons.1 hf with rfl | hf
    · exact h.1
    · exact ih h.2 hf

theorem everyFields_prefix {P : List Field → Prop} {pre post : List Field}
    (h : EveryFields P (pre ++ post)) : EveryFields P pre := by
  induction pre with
  | nil => rw [EveryFields]; trivial
  | cons g pre ih =>
    rw [List.cons_append, EveryFields] at h
    rw [EveryFields]
    exact ⟨h.1, ih h.2⟩

theorem uniqueField_of_mem {seen : List String} {fs : List Field}
    (h : uniqueFields seen fs = true) {f : Field} (hf : f ∈ fs) : uniqueField f = true := by
  induction fs generalizing seen with
  | nil => cases hf
  | cons g fs ih =>
    simp only [uniqueFields, Bool.and_eq_true] at h
    rcases List.mem_cons.1 hf with rfl | hf
    · exact h.1.2
    · exact ih h.2 hf

theorem earlierField_of_mem {seen : List String} {fs : List Field}
    (h : earlierFields seen fs = true) {f : Field} (hf : f ∈ fs) : earlierField f = true := by
  induction fs generalizing seen with
  | nil => cases hf
  | cons g fs ih =>
    simp only [earlierFields, Bool.and_eq_true] at h
    rcases List.mem_cons.1 hf with rfl | hf
    · exact h.1.2
    · exact ih h.2 hf

theorem typedFields_split {cfg : Cfg} {pre post : List Field} {vpre vpost : List Val} {f : Field}
    {v : Val} (hl : pre.length = vpre.length)
    (h : TypedFields cfg (pre ++ f :: post) (vpre ++ v :: vpost)) :
    TypedFields cfg pre vpre ∧ TypedField cfg f v := by
  induction pre generalizing vpre with
  | nil =>
    cases vpre with
    | cons _ _ => simp at hl
    | nil =>
      simp only [List.nil_append, TypedFields] at h
      exact ⟨by simp [TypedFields], h.1⟩
  | cons g pre ih =>
    cases vpre with
    | nil => simp at hl
    | cons w vpre =>
      simp only [List.cons_append, TypedFields] at h ⊢
      have := ih (by simpa using hl) h.2
      exact ⟨⟨h.1, this.1⟩, this.2⟩

theorem sentFields_length {cfg : Cfg} {all : List Field} {vals : List Val} {fs : List Field}
    {vs us : List Val} (h : SentFields cfg all vals fs vs us) : fs.length = vs.length := by
  induction fs generalizing vs us with
  | nil => simp only [SentFields] at h; simp [h.1]
  | cons f fs ih =>
    simp only [SentFields] at h
    obtain ⟨v, vs', u, us', rfl, rfl, -, h⟩ := h
    simp [ih h]

theorem mem_zip_split {pre post : List Field} {vpre vpost : List Val} {f : Field} {v : Val}
    (hl : pre.length = vpre.length) : (f, v) ∈ (pre ++ f :: post).zip (vpre ++ v :: vpost) := by
  rw [List.zip_append hl]
  simp

/-- What a field puts out, by the writer. -/
theorem fieldBytes_out {cfg : Cfg} {f : Field} (hs : saneField f = true)
    (hu : uniqueField f = true) (hr : earlierField f = true) (he : EveryField (TypedConsts cfg) f)
    {ctx : WCtx} {v : Val} {q : List Byte} (hin : Given cfg ctx.fs ctx.vs) (hm : f ∈ ctx.fs)
    (hv : TypedField cfg f v) :
    FieldBytes cfg ctx.fs ctx.vs f v q ↔ ∃ x, Wr.out (writeStep cfg ctx f v) = (.done x, q) := by
  unfold FieldBytes
  replace hr := earlier_upToSelfField f hu hr
  rw [← sent_field cfg f hs hu hr he ctx v q hin hm hv]
  constructor
  · rintro (h | ⟨r, h⟩)
    · exact ⟨_, h⟩
    · exact ⟨_, (unsent_field cfg f hs hu hr he ctx v q r f.id hin hm hv).2 ⟨rfl, h⟩⟩
  · rintro ⟨⟨r, id⟩ | a, h⟩
    · exact .inr ⟨r, ((unsent_field cfg f hs hu hr he ctx v q r id hin hm hv).1 h).2⟩
    · exact .inl h

/-- The field that does not fit, by the schema and the struct. -/
theorem overflows_exhausts {cfg : Cfg} {S : OutStream} {content : S.State → List Byte}
    {good : S.State → Prop} {room : S.State → Nat} (hC : Capacity S content good room)
    {fs : List Field} {vs : List Val} (hwf : WellFormed fs) (hc : Everywhere (TypedConsts cfg) fs)
    (hv : Typed cfg fs vs) (s : S.State) (hg : good s) {id : String}
    (h : Overflows cfg fs vs (room s) id) :
    ((streamCast cfg fs vs).runOn S s).1 = .done (.error ⟨.bufferExhaustion, id⟩) := by
  obtain ⟨pre, f, post, vpre, v, vpost, us, q, rfl, rfl, hid, h1, h2, h3, h4⟩ := h
  have hl := sentFields_length h1
  have ht := typedFields_split hl hv
  have hm : f ∈ pre ++ f :: post := by simp
  have hin : Given cfg (pre ++ f :: post) (vpre ++ v :: vpost) := ⟨hwf.acceptable, hc.1, hv⟩
  obtain ⟨x, hx⟩ := (fieldBytes_out (ctx := ⟨pre ++ f :: post, vpre ++ v :: vpost⟩)
    (sane_mem hwf.1 hm) (uniqueField_of_mem hwf.2.1 hm)
    (earlierField_of_mem hwf.2.2 hm) (everyFields_sub hc.2 hm) hin hm ht.2).1 h2
  refine (exhausted_fields hC _ id _ _ s hg).2 ⟨pre, f, post, vpre, v, vpost, _, rfl, rfl, hid, hl,
    (sent_fields cfg pre (sane_prefix _ _ hwf.1) [] (unique_prefix _ _ _ hwf.2.1) []
      (earlier_upToSelf _ _ (unique_prefix _ _ _ hwf.2.1) (earlier_prefix _ _ _ hwf.2.2))
      (everyFields_prefix hc.2) _ _ _ hin
      (fun g hg => by simp [hg]) ht.1).2 ⟨us, h1, rfl⟩, h3, ?_⟩
  rw [hx]
  exact h4

theorem exhausts_overflows {cfg : Cfg} {S : OutStream} {content : S.State → List Byte}
    {good : S.State → Prop} {room : S.State → Nat} (hC : Capacity S content good room)
    {fs : List Field} {vs : List Val} (hwf : WellFormed fs) (hc : Everywhere (TypedConsts cfg) fs)
    (hsafe : Everywhere (SafeList cfg) fs)
    (hv : Typed cfg fs vs) (s : S.State) (hg : good s) {id : String}
    (h : ((streamCast cfg fs vs).runOn S s).1 = .done (.error ⟨.bufferExhaustion, id⟩)) :
    Overflows cfg fs vs (room s) id := by
  obtain ⟨pre, f, post, vpre, v, vpost, p, rfl, rfl, hid, hl, h1, h2, h3⟩ :=
    (exhausted_fields hC _ id _ _ s hg).1 h
  have ht := typedFields_split hl hv
  have hm : f ∈ pre ++ f :: post := by simp
  have hin : Given cfg (pre ++ f :: post) (vpre ++ v :: vpost) := ⟨hwf.acceptable, hc.1, hv⟩
  obtain ⟨us, h4, rfl⟩ := (sent_fields cfg pre (sane_prefix _ _ hwf.1) []
    (unique_prefix _ _ _ hwf.2.1) [] (earlier_upToSelf _ _ (unique_prefix _ _ _ hwf.2.1)
      (earlier_prefix _ _ _ hwf.2.2)) (everyFields_prefix hc.2) ⟨pre ++ f :: post, vpre ++ v :: vpost⟩ _ _ hin (fun g hg => by simp [hg]) ht.1).1 h1
  obtain ⟨x, q, hx⟩ := runs_field cfg f (sane_mem hwf.1 hm) (uniqueField_of_mem hwf.2.1 hm)
    (earlier_upToSelfField f (uniqueField_of_mem hwf.2.1 hm) (earlierField_of_mem hwf.2.2 hm))
    (everyFields_sub hsafe.2 hm)
    ⟨pre ++ f :: post, vpre ++ v :: vpost⟩ v ⟨hwf.acceptable, hsafe.1.1, hsafe.1.2, hv⟩ (mem_zip_split hl)
  rw [hx] at h3
  exact ⟨pre, f, post, vpre, v, vpost, us, q, rfl, rfl, hid, h4,
    (fieldBytes_out (ctx := ⟨pre ++ f :: post, vpre ++ v :: vpost⟩)
      (sane_mem hwf.1 hm) (uniqueField_of_mem hwf.2.1 hm)
      (earlierField_of_mem hwf.2.2 hm) (everyFields_sub hc.2 hm) hin hm ht.2).2 ⟨x, hx⟩, h2, h3⟩

end S2S
