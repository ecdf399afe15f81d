/- Fiat-Shamir transcripts (external crate `merlin`), used by bulletproofs, spartan, hyrax, libra. -/
namespace Zkp

/-- One operation on a `merlin::Transcript`: `append_u64`, `append_message` of the serialization of a
scalar, a list of scalars, a matrix, a point or a list of points, or `challenge_bytes` (which also
changes the state). The label is kept. -/
inductive Msg (F G : Type) where
  | u64 (label : String) (n : Nat)
  | fr (label : String) (x : F)
  | frs (label : String) (xs : List F)
  | mat (label : String) (m : List (List F))
  | pt (label : String) (p : G)
  | pts (label : String) (ps : List G)
  | chal (label : String)

/-- The transcript state is the list of operations performed so far, newest last.
Used for instance at spartan/src/verify.rs:120-125. -/
abbrev Transcript (F G : Type) := List (Msg F G)

/-- The hash behind the challenges: an arbitrary function of everything that happened before,
including the label of this challenge (e.g. bulletproofs/src/lib.rs `random_bytes_to_fr`). -/
abbrev Oracle (F G : Type) := Transcript F G → F

end Zkp
