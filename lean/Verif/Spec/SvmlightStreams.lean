/-
Specification of what happens to files and streams.
-/
import Verif.Model.SvmlightStreams

namespace Verif.Spec
open SvmIO

/-- File objects that existed are open or closed as before, new ones are closed, and descriptors stay as they are, open or not. -/
def Tidy (w w' : World) : Prop :=
  w.streams.length ≤ w'.streams.length ∧
  (∀ (r : Nat) (s s' : Stream), w.streams[r]? = some s → w'.streams[r]? = some s' → s'.isOpen = s.isOpen) ∧
  (∀ (r : Nat) (s' : Stream), w.streams[r]? = none → w'.streams[r]? = some s' → s'.isOpen = false) ∧
  ∀ n, (w'.descs n).isSome = (w.descs n).isSome

/-- What is stored is read back line by line. -/
def Codec.Faithful (c : Codec) : Prop := ∀ s, c.dec (c.enc s) = Svm.lineResults s

end Verif.Spec
