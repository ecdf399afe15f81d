/- Model of the layered circuits in the tests of /repo/hyrax and /repo/libra. -/

namespace Zkp.TestCircuits

/-- hyrax/tests/test.rs:27-49, libra/tests/test.rs:32-54: eight public inputs and eight witness values, three layers. -/
def large : List (List (Nat × Nat × Nat)) :=
  [[(1, 0, 1), (0, 2, 3), (0, 4, 5), (1, 6, 7), (1, 15, 8), (1, 9, 10), (0, 11, 12), (0, 13, 14)],
   [(1, 0, 1), (0, 2, 3), (0, 4, 5), (1, 6, 7)],
   [(0, 0, 1), (0, 1, 2), (1, 2, 3), (1, 1, 3)]]

/-- hyrax/tests/test_2.rs:43-50, libra/tests/test_2.rs:29-36: two public inputs and two witness values, two layers. -/
def small : List (List (Nat × Nat × Nat)) := [[(1, 0, 2), (1, 1, 3)], [(0, 0, 1)]]

end Zkp.TestCircuits
