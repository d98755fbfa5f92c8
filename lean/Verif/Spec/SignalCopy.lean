import Verif.Model.SignalCopy
/-!
# Which connections are valid

A record of connections, kept from the history of operations alone: `connect` adds one, for one signal; it is gone when it is used to disconnect, and
when the signal is destroyed or assigned to. Copying a signal adds none.
-/
namespace Utki.Spec
open SignalCopy
variable {γ α σ : Type}

/-- The number of connections made so far, and those that are valid, each with its signal. -/
structure Book where
  made : Nat
  valid : List (Nat × Nat)

def Book.after (b : Book) : Op γ α → Book
  | .connect s _ => ⟨b.made + 1, b.valid ++ [(b.made, s)]⟩
  | .disconnect _ j => ⟨b.made, b.valid.filter (fun p => p.1 != j)⟩
  | .assign s _ => ⟨b.made, b.valid.filter (fun p => p.2 != s)⟩
  | .destroy s => ⟨b.made, b.valid.filter (fun p => p.2 != s)⟩
  | _ => b

/-- The record after a history. -/
def book (ops : List (Op γ α)) : Book := ops.foldl Book.after ⟨0, []⟩

/-- The signal that an operation changes. -/
def Target : Op γ α → Nat → Prop
  | .create, _ => False
  | .copy _, _ => False
  | .assign s _, t => t = s
  | .connect s _, t => t = s
  | .disconnect s _, t => t = s
  | .emit s _, t => t = s
  | .destroy s, t => t = s

/-- The calls of an emission, one after the other until one throws: result, the function objects after it, and the rest of the program. -/
def callEach (call : γ → α → σ → Res Unit × γ × σ) (moved : α → α) : List γ → α → σ → Res Unit × List γ × σ
  | [], _, u => (.ok (), [], u)
  | c :: cs, a, u =>
    match call c a u with
    | (.ok _, c', u') => ((callEach call moved cs (moved a) u').1, c' :: (callEach call moved cs (moved a) u').2.1, (callEach call moved cs (moved a) u').2.2)
    | (r, c', u') => (r, c' :: cs, u')

end Utki.Spec
