import Verif.Model.Threads
import Verif.Model.ThreadsBags

/-!
# Interrupted calls

A call can be interrupted between any two operations (KeyboardInterrupt, an alarm or an exception raised by a signal handler): what it has assigned stays assigned and the rest of it does not happen. The operations of each call are those of
`Verif.Model.Threads` (base.py, frank_and_hall.py) and `Verif.Model.ThreadsBags` (bag_generator.py); no method of the library catches such an exception.
-/

namespace Verif.Model

/-- The store after the first operations of a call. -/
def Code.after {St R : Type} : ℕ → St → Code St R → St
  | 0, s, _ => s
  | n + 1, s, c => Code.after n (c.step s).1 (c.step s).2

/-- The store after the first operations of a call. -/
def AtomicCode.after {St R : Type} : ℕ → St → AtomicCode St R → St
  | 0, s, _ => s
  | n + 1, s, c => AtomicCode.after n (c.step s).1 (c.step s).2

/-- A call that is not interrupted: the store after it and its result. -/
def AtomicCode.run {St R : Type} (s : St) : AtomicCode St R → St × R
  | .ret r => (s, r)
  | .op f k => (k s).run (f s)

end Verif.Model
