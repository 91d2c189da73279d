/-
What sets and maps hold, without the containers.
-/
namespace S2S.Spec

/-- Every element once, at its first place. -/
def firsts [DecidableEq α] : List α → List α
  | [] => []
  | a :: l => a :: (firsts l).filter (· ≠ a)

/-- The value of the last entry with that key. -/
def lastEntry (key : String) (es : List (String × β)) : Option β :=
  (es.reverse.find? fun e => e.1 == key).map Prod.snd

end S2S.Spec
