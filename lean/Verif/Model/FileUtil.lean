import Verif.Model.Tables
/-!
# Model of nisaba/port/file_util.cc

The file system is left out: `readLines` works on the contents of a file that could be opened.
-/
namespace Nisaba.FileUtil

/-- `PATH_SEPARATOR` (file_util.cc:30-34), the branch for other systems than Windows. -/
def sep : Nat := 47

/-- file_util.cc:72-81 `JoinPath`. -/
def joinPath (dirname basename : Str) : Str :=
  if (!basename.isEmpty && basename.head? == some sep) || dirname.isEmpty then basename
  else if dirname.getLast? == some sep then dirname ++ basename
  else dirname ++ [sep] ++ basename

/-- Successive calls of `std::getline` until it fails: a line ends at a line feed, which is dropped,
or at the end of the file; nothing is read at the end of the file.  `acc` is the line read so far. -/
def getLines : Str → Str → List Str
  | acc, [] => if acc.isEmpty then [] else [acc]
  | acc, c :: s => if c = 10 then acc :: getLines [] s else getLines (acc ++ [c]) s

/-- Body of the loop of `ReadLines` (file_util.cc:171-175) on a non-empty line. -/
def cutLine (maxLength : Nat) (line : Str) : Str :=
  if line.length ≥ maxLength then line.set (maxLength - 1) 0 else line

/-- file_util.cc:157-178 `ReadLines` on the contents of the file.  `none` is the write before the
start of the line for `max_line_length = 0`. -/
def readLines (contents : Str) (maxLineLength : Int) : Option (List Str) :=
  let maxLength := if maxLineLength < 0 then 32768 else maxLineLength.toNat
  let lines := (getLines [] contents).filter (fun l => !l.isEmpty)
  if maxLength = 0 && !lines.isEmpty then none else some (lines.map (cutLine maxLength))

end Nisaba.FileUtil
