import Verif.Lemmas.Inside
import Verif.Props.Either
import Verif.Props.Flat
import Verif.Props.Rename
/-
Records can be replaced by ones that stand for them.
-/
namespace S2S.Props
open Spec Demo

/-- C150. Reading, a list whose records are replaced by ones that stand for them reads the same, up to
what these records hold, with the same errors in the same fields. -/
theorem C150_read (cfg : Cfg) (S : InStream) (T : OutStream) (pick : String → Bool) (fs fs' : List Field)
    (gs : List Val → List Val) (oks : List Val → Prop) (h : SwapFields cfg S T pick fs fs' gs oks)
    (hu : Unread pick fs) (s : S.State) :
    (structCast cfg fs').runOn S s =
      match (structCast cfg fs).runOn S s with
      | (.done (.ok vs), s') => (.done (.ok (gs vs)), s')
      | (.done (.error e), s') => (.done (.error e), s')
      | (.stuck w, s') => (.stuck w, s') := by
  have h1 := h.read hu (dfltEnv fs) (dfltEnv fs') (fun i hi => (h.dflts i hi).symm) s
  rw [runOn_mapOk] at h1
  unfold structCast
  rw [h1]
  rcases Rd.runOn S (readFields cfg (dfltEnv fs) fs) s with ⟨(_ | _) | _, s'⟩ <;> rfl

/-- C150. Writing, it does the same, with the same errors in the same fields. -/
theorem C150_write (cfg : Cfg) (S : InStream) (T : OutStream) (pick : String → Bool) (fs fs' : List Field)
    (gs : List Val → List Val) (oks : List Val → Prop) (h : SwapFields cfg S T pick fs fs' gs oks)
    (hu : Unread pick fs) (vs : List Val) (hv : oks vs) (s : T.State) :
    (streamCast cfg fs' (gs vs)).runOn T s = (streamCast cfg fs vs).runOn T s :=
  h.write (h.sameTo hu vs) (h.unread hu) (fun _ hf => hf) vs hv s

/-- What reads and writes the same, errors included, stands for one another. -/
theorem standsFor_of {cfg : Cfg} {S : InStream} {T : OutStream} {gs gs' : List Field} {φ : List Val → List Val}
    {ok : List Val → Prop}
    (hr : ∀ s, (structCast cfg gs').runOn S s =
      match (structCast cfg gs).runOn S s with
      | (.done (.ok vs), s') => (.done (.ok (φ vs)), s')
      | (.done (.error e), s') => (.done (.error e), s')
      | (.stuck w, s') => (.stuck w, s'))
    (hw : ∀ vs, ok vs → ∀ s, (streamCast cfg gs' (φ vs)).runOn T s = (streamCast cfg gs vs).runOn T s) :
    StandsFor cfg S T gs gs' φ ok where
  read s := by
    simp only [RdE.untag, RdE.runOn_mapErr, hr]
    rcases Rd.runOn S (structCast cfg gs) s with ⟨(_ | _) | _, s'⟩ <;> rfl
  write vs hv s := by simp only [WrE.untag, WrE.runOn_mapErr', hw vs hv]

/-- C150. So the one list stands for the other, and the same can be done with records of it: records
can be replaced however deep they lie. -/
theorem C150_deep (cfg : Cfg) (S : InStream) (T : OutStream) (pick : String → Bool) (fs fs' : List Field)
    (gs : List Val → List Val) (oks : List Val → Prop) (h : SwapFields cfg S T pick fs fs' gs oks)
    (hu : Unread pick fs) : StandsFor cfg S T fs fs' gs oks :=
  standsFor_of (C150_read cfg S T pick fs fs' gs oks h hu) fun vs hv => C150_write cfg S T pick fs fs' gs oks h hu vs hv

/-- C150. What stands for what stands for a list stands for it. -/
theorem C150_trans (cfg : Cfg) (S : InStream) (T : OutStream) (as bs cs : List Field) (φ ψ : List Val → List Val)
    (ok ok' : List Val → Prop) (h : StandsFor cfg S T as bs φ ok) (h' : StandsFor cfg S T bs cs ψ ok') :
    StandsFor cfg S T as cs (fun vs => ψ (φ vs)) fun vs => ok vs ∧ ok' (φ vs) where
  read s := by
    rw [h'.read, h.read]
    rcases Rd.runOn S (structCast cfg as).untag s with ⟨(_ | _) | _, s'⟩ <;> rfl
  write vs hv s := by rw [h'.write _ hv.2, h.write _ hv.1]

/-- C150. Flat arrays stand for arrays of arrays. -/
theorem C150_flat (cfg : Cfg) (S : InStream) (T : OutStream) (pick : String → Bool) (fs : List Field)
    (hu : Unread pick fs) (hc : Unchecked pick fs) :
    StandsFor cfg S T fs (fs.map (flatField pick)) (flatStruct pick fs) (Dims pick fs) :=
  standsFor_of (C149_stream S cfg pick fs hu hc) fun vs hv s => by rw [C149_write cfg pick fs hu hc vs hv]

/-- C150. Unions with an alternative of no bytes stand for optionals. -/
theorem C150_unions (cfg : Cfg) (S : InStream) (hS : IdleIn S) (T : OutStream) (hT : IdleOut T)
    (pick : String → Bool) (fs : List Field) (hu : Unread pick fs) :
    StandsFor cfg S T fs (fs.map (asUnion pick)) (asVariants pick fs) fun vs =>
      Optionals fs vs ∧ NotHeldBack pick (envOf fs vs) fs vs :=
  standsFor_of (C147_read S hS cfg pick fs hu) fun vs hv s => C147_same T hT cfg pick fs hu vs hv.1 hv.2 s

/-- C150. The list with other names stands for the list. -/
theorem C150_renamed (cfg : Cfg) (S : InStream) (T : OutStream) (ρ : String → String) (hρ : Injective ρ)
    (fs gs : List Field) (h : RenFields ρ fs gs) : StandsFor cfg S T fs gs id fun _ => True where
  read s := by
    rw [C84_read cfg ρ hρ fs gs h]
    simp only [RdE.untag, RdE.runOn_mapErr]
    rcases Rd.runOn S (structCast cfg fs) s with ⟨(_ | _) | _, s'⟩ <;> rfl
  write vs _ s := by
    rw [id, C84_write cfg ρ hρ fs gs h]
    simp only [WrE.untag, WrE.runOn_mapErr']
    rcases Wr.runOn T (streamCast cfg fs vs) s with ⟨(_ | _) | _, s'⟩ <;> rfl

/-- A sheet: its number of pages and the pages, each two matrices. -/
def sheet : List Field :=
  [.plain "n" (.num u8 1) .none,
   .plain "pages" (.vecRec matrices (.fromField "n") none 16) .none,
   .maybe "cover" (.record matrices) ⟨["n"], fun vs => vs == [.int 2]⟩]

def flatSheet : List Field :=
  [.plain "n" (.num u8 1) .none,
   .plain "pages" (.vecRec (matrices.map (flatField bothArrays)) (.fromField "n") none 16) .none,
   .maybe "cover" (.record (matrices.map (flatField bothArrays))) ⟨["n"], fun vs => vs == [.int 2]⟩]

def bothRecords (i : String) : Bool := i == "pages" || i == "cover"

theorem sheet_unread : Unread bothRecords sheet := by unfold Unread; decide +kernel

/-- The matrices in the pages and on the cover as flat arrays. -/
theorem flatSheet_swap (cfg : Cfg) (S : InStream) (T : OutStream) : ∃ gs oks,
    SwapFields cfg S T bothRecords sheet flatSheet gs oks ∧
    (∀ n rows c, gs [n, .seq rows, c] = [n, .seq (rows.map (onRecord (flatStruct bothArrays matrices))),
      onPresent (onRecord (flatStruct bothArrays matrices)) c]) :=
  have h := C150_flat cfg S T bothArrays matrices matrices_unread matrices_unchecked
  ⟨_, _, .cons (.kept _) (.cons (.plain rfl (.vecRec _ _ _ h) rfl rfl fun _ => rfl) (.cons (.maybe rfl (.record h)) .nil)),
    fun _ _ _ => rfl⟩

/-- One page: the same input is left, and the page holds its six numbers in a row. -/
example : (structCast be64 flatSheet).runOn listIn [1, 0, 1, 0, 2, 0, 3, 0, 4, 0, 5, 0, 6, 0, 9, 77] =
    (.done (.ok [.int 1, .seq [.seq [.seq [.int 1, .int 2, .int 3, .int 4, .int 5, .int 6], .int 0, .absent, .int 9]],
      .absent]), [77]) := by
  obtain ⟨gs, oks, h, hg⟩ := flatSheet_swap be64 listIn listOut
  refine (C150_read be64 listIn listOut bothRecords sheet flatSheet gs oks h sheet_unread _).trans ?_
  show (Outcome.done (Except.ok (gs [.int 1, .seq [.seq [.seq [.seq [.int 1, .int 2, .int 3],
    .seq [.int 4, .int 5, .int 6]], .int 0, .absent, .int 9]], .absent])), _) = _
  rw [hg]
  rfl

/-- A book of sheets, one level further down. -/
example (S : InStream) (T : OutStream) : ∃ φ ok, StandsFor be64 S T
    [.plain "book" (.arrRec sheet 3) .none] [.plain "book" (.arrRec flatSheet 3) .none] φ ok := by
  obtain ⟨gs, oks, h, _⟩ := flatSheet_swap be64 S T
  exact ⟨_, _, C150_deep be64 S T (fun i => i == "book") _ _ _ _
    (.cons (.plain rfl (.arrRec 3 (C150_deep be64 S T bothRecords sheet flatSheet gs oks h sheet_unread)) rfl rfl fun _ => rfl) .nil)
    (by unfold Unread; decide +kernel)⟩

/-- A record whose fields have other names. -/
example (S : InStream) (s : S.State) :
    (structCast be64 [.plain "r" (.record packetEx) .none]).runOn S s =
      match (structCast be64 [.plain "r" (.record packet) .none]).runOn S s with
      | (.done (.ok vs), s') => (.done (.ok (onEach (onRecord id) id vs)), s')
      | (.done (.error e), s') => (.done (.error e), s')
      | (.stuck w, s') => (.stuck w, s') :=
  C150_read be64 S listOut (fun i => i == "r") _ _ _ _
    (.cons (.plain rfl (.record (C150_renamed be64 S listOut exchange exchange_injective packet packetEx packet_renamed))
      rfl rfl fun _ => rfl) .nil)
    (by unfold Unread; decide +kernel) s

/-- First the arrays of the records flat, then their optionals as unions. -/
example : ∃ φ ok, StandsFor be64 listIn listOut matrices
    ((matrices.map (flatField bothArrays)).map (asUnion fun i => i == "cube")) φ ok :=
  ⟨_, _, C150_trans be64 listIn listOut _ _ _ _ _ _ _
    (C150_flat be64 listIn listOut bothArrays matrices matrices_unread matrices_unchecked)
    (C150_unions be64 listIn idle_listIn listOut idle_listOut (fun i => i == "cube") _
      (by unfold Unread; decide +kernel))⟩

example (vs : List Val) (h : Dims bothArrays matrices vs) :
    (streamCast be64 [.plain "r" (.record (matrices.map (flatField bothArrays))) .none]
        [.seq (flatStruct bothArrays matrices vs)]).run =
      (streamCast be64 [.plain "r" (.record matrices) .none] [.seq vs]).run :=
  C150_write be64 listIn listOut (fun i => i == "r") [.plain "r" (.record matrices) .none] _ _ _
    (.cons (.plain rfl (.record (C150_flat be64 listIn listOut bothArrays matrices matrices_unread matrices_unchecked))
      rfl rfl fun _ => rfl) .nil)
    (by unfold Unread; decide +kernel) [.seq vs] ⟨fun ws e => by cases e; exact h, trivial⟩ []

end S2S.Props
