import Verif.Model.JuiceSwitch
/-!
# What a protocol switch should do
-/
namespace Verif.JuiceSwitch
open Verif.Py

/-- What an application has to refrain from: a peer whose inner protocol is in place uses no juice any more. -/
def Orderly (w : World) : Op → Prop
  | .command s _ => (w.side s).inner = false
  | .switch s => (w.side s).inner = false
  | .respond s i _ => (w.side s).inner = false ∨ ∀ t b, (w.side s).pending[i]? ≠ some (some t, b)
  | _ => True

def OrderlyRun (w : World) : List Op → Prop
  | [] => True
  | op :: ops => Orderly w op ∧ OrderlyRun (step w op) ops

/-- The bytes of inner protocols among what is under way. -/
def underway (l : List Item) : List Nat :=
  l.filterMap fun it => match it with
    | .inner b => some b
    | _ => none

/-- Does `op` make `s` start waiting for a switch?  A locked peer's attempt raises. -/
def starts (w : World) (s : Bool) (op : Op) : Bool :=
  decide (op = .switch s) && ((w.side s).outstanding.isNone || !(w.side s).locked)

/-- How many switches `s` has started. -/
def started (s : Bool) : World → List Op → Nat
  | _, [] => 0
  | w, op :: ops => (if starts w s op then 1 else 0) + started s (step w op) ops

/-- How many switches `s` is waiting for. -/
def waiting (p : Side) : Nat :=
  match p.outstanding with
  | none => 0
  | some d => (d.filter fun x => x.2).length

end Verif.JuiceSwitch
