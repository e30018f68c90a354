import Verif.Model.Stream

/-!
# What writing a list of elements to a serialiser is
-/

namespace V11
variable {E D τ O : Type}

/-- The serialiser given the length of the list, each element in order, and the end; the first error is the result. -/
def Sink.write (k : Sink E τ O D) (l : List E) : Except D O := do
  let t ← k.start l.length
  let t ← l.foldlM k.elem t
  k.finish t

/-- The answer of `serialize` for such a result. -/
def Put.ofExcept : Except D O → Put O D
  | .ok o => .done o
  | .error d => .err d

end V11
