import Verif.FileFn.Model

/-!
# Model of the conversion of time series from text

Sources
* `/repo/anuga/file_conversion/file_conversion.py` 89-216 (`timefile2netcdf`).

Simplifications
* a line is the list of its fields between commas; reading of times (as seconds or as dates), of words and of numbers are parameters;
* numbers are exact. The file is that of `Verif.FileFn`, which models `file_function`.
-/

namespace Verif.TimeFile

open Verif.FileFn (File Var)

variable {S K : Type} [Field K] [LinearOrder K]

/-- How text is read: `time.strptime` or `float`, `split`, `float`. -/
structure Reader (S K : Type) where
  time : S → Option K
  words : S → List S
  num : S → Option K

/-- `quantity_names[i]`, or a name made from the number, 208-211. -/
def nameOf (names : List String) (i : ℕ) : String := (names[i]?).getD ("Attribute" ++ toString i)

/-- 171-180: one line; `d` values are kept for it, which are zero unless set. -/
def row (R : Reader S K) (d : ℕ) (fields : List S) : Option (K × List K) :=
  match fields[0]?, fields[1]? with
  | some a, some b =>
    match R.time a, (R.words b).mapM R.num with
    | some t, some v => if v.length ≤ d then some (t, v ++ List.replicate (d - v.length) 0) else none
    | _, _ => none
  | _, _ => none

/-- 184: `num.all(T[1:] - T[:-1] > 0)`. -/
def increasing : List K → Bool
  | a :: b :: l => decide (0 < b - a) && increasing (b :: l)
  | _ => true

/-- `timefile2netcdf`, 89-216; `none` is an exception. -/
def convert (R : Reader S K) (names : List String) (lines : List (List S)) : Option (File K) :=
  match lines with
  | [] => none
  | first :: _ =>
    if first.length ≠ 2 then none
    else
      match first[0]?, first[1]? with
      | some a, some b =>
        match R.time a, (R.words b).mapM R.num with
        | some start, some q =>
          let d := q.length
          match lines.mapM (row R d) with
          | none => none
          | some rows =>
            let T := rows.map fun r => r.1 - start
            let used := (List.range d).map (nameOf names)
            if ¬ increasing T then none
            else if ¬ ("time" :: used).Nodup then none
            else some { ext := .tms, starttime := start, time := some T, corner := ⟨0, 0⟩, coords := none, tris := []
                        vars := fun n => ((List.range d).find? fun i => nameOf names i = n).map fun i => .one (rows.map fun r => r.2.getD i 0) }
        | _, _ => none
      | _, _ => none

end Verif.TimeFile
