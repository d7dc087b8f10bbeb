import Verif.Model.TraceRing
/- What a trace buffer is for: the newest events, oldest first. -/
namespace Verif.TraceRing

/-- The last `n` of a list. -/
def latest {α : Type} (n : Nat) (l : List α) : List α := l.drop (l.length - n)

/-- Recording a list of events. -/
def records {α : Type} : Ring α → List α → Option (Ring α)
  | r, [] => some r
  | r, e :: l => (record r e).bind (records · l)

end Verif.TraceRing
