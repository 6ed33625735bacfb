import Verif.Model.FileUtil
/-!
# Model of the whole-file functions of nisaba/port/file_util.cc and nisaba/port/file.cc

A file that exists can be read to its end, and a write to an open file stores every byte: errors of
the device are left out.  File names are used as they are, without links or `..`.
-/
namespace Nisaba.TextFile

/-- The files, and the names under which a file can be opened for writing. -/
structure FS where
  files : Str → Option Str
  canWrite : Str → Bool

/-- Codes of `absl::Status`. -/
inductive Code where
  | permissionDenied
  | notFound
  | internal
  | invalidArgument
  deriving DecidableEq

/-- file_util.cc:107-122 `WriteTextFile`: `open` empties an existing file. -/
def writeTextFile (fs : FS) (path contents : Str) : Except Code FS :=
  if fs.canWrite path then
    .ok { fs with files := fun p => if p = path then some contents else fs.files p }
  else .error .permissionDenied

/-- file_util.cc:83-91 `TempFilePath` on other systems than iOS; `tmp` is the non-empty
`temp_directory_path()`.  The operator `/` of `std::filesystem` is `JoinPath` there. -/
def tempFilePath (tmp filename : Str) : Str := FileUtil.joinPath tmp filename

/-- file_util.cc:93-105 `WriteTempTextFile`: the path and the files after the call. -/
def writeTempTextFile (fs : FS) (tmp filename contents : Str) : Except Code (Str × FS) :=
  let path := tempFilePath tmp filename
  if fs.canWrite path then
    .ok (path, { fs with files := fun p => if p = path then some contents else fs.files p })
  else .error .permissionDenied

/-- file_util.cc:125-146 `ReadFile`, and `ReadBinaryFile`, `ReadTextFile` of lines 150-156, which
differ in the mode only; the mode means nothing on other systems than Windows. -/
def readFile (fs : FS) (path : Str) : Except Code Str :=
  match fs.files path with
  | none => .error .notFound
  | some contents => if contents.length = 0 then .error .internal else .ok contents

/-- The parsers of a protocol message of type `P`, not in the repository: `TextFormat::Parser` and
`Message::ParseFromString`. -/
structure Parsers (P : Type) where
  text : Str → Option P
  binary : Str → Option P

variable {P : Type}

/-- nisaba/port/file.cc:170-196 `ReadFileToProto`: the message, or `none` for `false`. -/
def readFileToProto (ps : Parsers P) (fs : FS) (path : Str) : Option P :=
  match readFile fs path with
  | .error _ => none
  | .ok s =>
    match ps.text s with
    | some m => some m
    | none => ps.binary s

/-- `Defaults()` (file.h:114). -/
def defaults : Int := 0xBABA

/-- nisaba/port/file.cc:198-207 `GetTextProto`. -/
def getTextProto (ps : Parsers P) (fs : FS) (path : Str) (flags : Int) : Except Code P :=
  if flags = defaults then
    match readFileToProto ps fs path with
    | some m => .ok m
    | none => .error .invalidArgument
  else .error .invalidArgument

end Nisaba.TextFile
