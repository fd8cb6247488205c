import Verif.Model.Bytes

/-!
Paths as used for the names of output files (`src/bin/main.rs`, `src/c_api/cres.rs`, `src/bin/classify-events.rs`), with the
functions of the standard library of Rust on Unix. A path is a sequence of bytes.
-/

namespace Cres.Path

/-- The parts of a path between slashes. -/
def split : Bytes → List Bytes
  | [] => [[]]
  | b :: bs =>
    if b = 47 then [] :: split bs
    else
      match split bs with
      | [] => [[b]]
      | c :: cs => (b :: c) :: cs

/-- `Path::components` without the root. Repeated slashes, a slash at the end and `.` are ignored; the standard library does
return `.` at the start of a relative path, this makes no difference here. -/
def components (p : Bytes) : List Bytes := (split p).filter fun c => c ≠ [] ∧ c ≠ [46]

/-- `Path::file_name`: the last component unless it is `..`. -/
def fileName (p : Bytes) : Option Bytes :=
  match (components p).getLast? with
  | some c => if c = [46, 46] then none else some c
  | none => none

/-- `Path::is_absolute`. -/
def isAbsolute (p : Bytes) : Bool := p.head? = some 47

/-- `PathBuf::push`: an absolute path replaces the present one. -/
def push (a b : Bytes) : Bytes :=
  if isAbsolute b then b
  else if a = [] ∨ a.getLast? = some 47 then a ++ b
  else a ++ 47 :: b

/-- `PathBuf::from_iter([outdir, name])`. -/
def fromPair (outdir name : Bytes) : Bytes := push (push [] outdir) name

/-- Where a path leads to in a file system without symbolic links: the directories from the root, for a program that is run
in the directory `cwd`. -/
def locate (cwd : List Bytes) (p : Bytes) : List Bytes :=
  (components p).foldl (fun d c => if c = [46, 46] then d.dropLast else d ++ [c]) (if isAbsolute p then [] else cwd)

/-- The pair of input and output file in `cres_with_search` (`src/bin/main.rs:75-81`) and in `cres_run_with`
(`src/c_api/cres.rs:180-184`). No result stands for the panic in `unwrap`. -/
def filePair (outdir f : Bytes) : Option (Bytes × Bytes) := (fileName f).map fun name => (f, fromPair outdir name)

/-! ### `classify-events` -/

/-- `split_once('.')` with the default `(file, "")`. -/
def splitDot : Bytes → Bytes × Bytes
  | [] => ([], [])
  | b :: bs => if b = 46 then ([], bs) else (b :: (splitDot bs).1, (splitDot bs).2)

/-- `format!("{prefix}.{i}.{suffix}")` (`src/bin/classify-events.rs:181`, `:256`). -/
def regionName (file : Bytes) (i : Nat) : Bytes :=
  (splitDot file).1 ++ 46 :: (ascii (toString i) ++ 46 :: (splitDot file).2)

/-- The output file for region `i` of a text file in `make_byte_writers` (`src/bin/classify-events.rs:245-258`). No result
stands for an error. -/
def textOutput (outdir file : Bytes) (i : Nat) : Option Bytes :=
  match fileName file with
  | none => none
  | some name => if validUtf8 name then some (fromPair outdir (regionName name i)) else none

/-- The output file for region `i` of an ntuple file in `classify_ntuple_records` (`src/bin/classify-events.rs:175-183`). No
result stands for a panic. -/
def ntupleOutput (outdir file : Bytes) (i : Nat) : Option Bytes :=
  if validUtf8 file then some (fromPair outdir (regionName file i)) else none

end Cres.Path
