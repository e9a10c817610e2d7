import Verif.Model.Life

/-! What it means that providers are called in order, used by C187. -/

namespace Textual.Life

/-- A provider is off at first; `startup` turns it on, it may be asked while it is on, `shutdown` turns it off. The state
after these calls, unless one of them is out of order. -/
def after : Bool → List Call → Option Bool
  | on, [] => some on
  | false, .startup :: cs => after true cs
  | true, .ask :: cs => after true cs
  | true, .shutdown :: cs => after false cs
  | _, _ => none

/-- The calls that provider `p` got. -/
def World.calls (w : World) (p : Nat) : List Call := (w.log.filter fun e => e.1 = p).map (·.2)

/-- A history in which each step is one of those allowed in the state it is taken. -/
def Allowed (ok : World → Op → Prop) : World → List Op → Prop
  | _, [] => True
  | w, o :: os => ok w o ∧ Allowed ok (step w o) os

/-- New providers are given only while the palette is closed. -/
def SetWhileClosed (w : World) : Op → Prop
  | .setProviders _ => w.visible = false
  | _ => True

/-- The runtime lets the tasks take a provider's lock in the order in which they were spawned. -/
def InTurn (w : World) : Op → Prop
  | .begin i => ∀ t, w.tasks[i]? = some t → ∀ j < i, ∀ u, w.tasks[j]? = some u → u.running = false →
      u.provider ≠ t.provider
  | _ => True

end Textual.Life
