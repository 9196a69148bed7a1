import Verif.Csv.PropsMerge

/-! # Samples -/

namespace Verif.Csv

def smA : List (List String) := [["hours", "depth", "stage"], ["0", "x", "1.5"], ["1", "x", "1.7"]]

def smB : List (List String) := [["stage", "hours"], ["2.5", "0"], ["2.7", "1"]]

example : merge id "hours" "stage" [(smA, "a"), (smB, "b")] = .ok [["hours", "a", "b"], ["0", "1.5", "2.5"], ["1", "1.7", "2.7"]] := by decide +kernel

example : Series id "hours" "stage" smB [("0", "2.5"), ("1", "2.7")] := (readPairs_iff _ _ _ _ _).mp (by decide +kernel)

/-- Both sides of `C116_merge` hold for the sample. -/
example := (C116_merge id "hours" "stage" [(smA, "a"), (smB, "b")] [["hours", "a", "b"], ["0", "1.5", "2.5"], ["1", "1.7", "2.7"]]).mp (by decide +kernel)

/-- Keys that differ are refused. -/
example : merge id "hours" "stage" [(smA, "a"), ([["stage", "hours"], ["2.5", "0"], ["2.7", "2"]], "b")] = .error .value := by decide +kernel

/-- **C116.** Rows that are cut off are left out without a message. -/
theorem C116_cut_off : merge id "hours" "stage" [([["hours", "stage"], ["0", "1"], ["1"], ["2", "3"]], "a")] = .ok [["hours", "a"], ["0", "1"], ["2", "3"]] := by
  decide +kernel

end Verif.Csv
