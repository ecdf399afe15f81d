/- Model of the circuit of /repo/spartan/tests/test.rs. The circuit `Mini` of the `mini.rs` tests (/repo/groth16/tests/mini.rs,
/repo/bulletproofs/tests/mini.rs, /repo/marlin/tests/mini.rs, /repo/spartan/tests/mini.rs) is that of the command-line tool, `mini` in
Verif/Model/Cli.lean. -/
import Verif.Model.Cli

namespace Zkp.TestR1cs

variable {F : Type} [Field F]

/-- spartan/tests/test.rs:22-117 `TestDemo::generate_constraints`; returns the variables (dropped by the Rust code). -/
def demo (lhs rhs ohs phs : Option F) : Synth F (Index × Index × Index × Index) := do
  let l ← alloc (okOr lhs)
  let r ← alloc (okOr rhs)
  let o ← alloc (okOr ohs)
  let p ← allocInput (okOr phs)
  let one : Index := .one
  enforce ((LC.zero.addVar one).subVar l) (LC.zero.addVar l) LC.zero
  enforce ((LC.zero.addVar one).subVar r) (LC.zero.addVar r) ((LC.zero.subVar one).subVar one)
  enforce (LC.zero.addVar l) (LC.zero.addVar l) (LC.zero.addVar one)
  enforce (LC.zero.addVar r) (LC.zero.addVar r)
    ((((LC.zero.addVar one).addVar one).addVar one).addVar one)
  enforce ((LC.zero.addVar one).subVar l) (LC.zero.addVar l) LC.zero
  enforce ((LC.zero.addVar one).subVar r) (LC.zero.addVar r) ((LC.zero.subVar one).subVar one)
  enforce (LC.zero.addVar p) (LC.zero.addVar o) (LC.zero.addVar one)
  enforce (LC.zero.addVar r) ((LC.zero.addVar r).addVar one)
    ((((((LC.zero.addVar one).addVar one).addVar one).addVar one).addVar one).addVar one)
  return (l, r, o, p)

end Zkp.TestR1cs
