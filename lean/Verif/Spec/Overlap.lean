import Verif.Model.Overlap

/-!
# A transmitter which overlaps with the output of a response
-/

namespace Upd.Spec

/-- How many bytes of a response a transmitter has sent once the first `k` bytes have been output, if it tries `runs pt` times to send the next byte
at each point `pt`: at each try it sends one byte, if there is one. -/
def sentSoFar (runs : CallPoint → Nat) : Nat → Nat
  | 0 => 0
  | k + 1 => min (k + 1) (min k (sentSoFar runs k + runs (.beforeStore k)) + runs (.afterByte k))

end Upd.Spec
