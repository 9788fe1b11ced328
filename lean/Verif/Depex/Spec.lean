import Verif.Depex.Model
/-!
Independent specification of dependency expressions: boolean expressions over "protocol g is
installed", and their byte encoding per the PI specification (postfix, opcodes 0x02..0x08).
-/
namespace Verif.Depex

/-- A dependency as the author of a driver thinks of it. -/
inductive Expr where
  | installed (g : Guid)
  | tru
  | fls
  | not (e : Expr)
  | and (a b : Expr)
  | or (a b : Expr)

/-- Its truth value given which protocols are installed. -/
def Expr.holds (inst : Guid → Prop) : Expr → Prop
  | .installed g => inst g
  | .tru => True
  | .fls => False
  | .not e => ¬ e.holds inst
  | .and a b => a.holds inst ∧ b.holds inst
  | .or a b => a.holds inst ∨ b.holds inst

/-- Its encoding, without the final END (PI spec vol. 2, 10.7). -/
def Expr.encode : Expr → List UInt8
  | .installed g => 0x02 :: g.bytes
  | .tru => [0x06]
  | .fls => [0x07]
  | .not e => e.encode ++ [0x05]
  | .and a b => a.encode ++ (b.encode ++ [0x03])
  | .or a b => a.encode ++ (b.encode ++ [0x04])

/-- The complete DEPEX section contents: the expression, END, and possibly padding after END. -/
def Expr.section (e : Expr) (padding : List UInt8) : List UInt8 := e.encode ++ 0x08 :: padding

/-- The verdicts of a series of evaluations of one DEPEX object against successive protocol sets. -/
def evalHistory (dbg : Bool) : List Opcode → List (List Guid) → List (Outcome Unit Bool)
  | _, [] => []
  | d, s :: ss => (eval dbg s d).1 :: evalHistory dbg (eval dbg s d).2 ss

/-- An opcode that may appear in the body of an ordinary expression. -/
def Opcode.plain : Opcode → Bool
  | .push _ _ | .and | .or | .not | .tru | .fls => true
  | _ => false

end Verif.Depex
