import Verif.Model.FileIO
import Verif.Model.Paths

/-!
Model of the program `cres-shell-completion` (`src/bin/shell_completion.rs`).

Simplifications: the scripts, which are generated by `clap_complete`, are a parameter. Directories can always be created and files written.
Values of environment variables and names of processes are sequences of bytes; names that are not valid UTF-8 are not the name of a shell.
-/

namespace Cres.Completion

/-- `enum Shell` (`src/bin/shell_completion.rs:22-43`). -/
inductive Shell
  | bash
  | elvish
  | fish
  | powershell
  | zsh
deriving DecidableEq, Repr

/-- `to_ascii_lowercase` for a byte. -/
def lowerByte (b : UInt8) : UInt8 := if 65 ≤ b ∧ b ≤ 90 then b + 32 else b

/-- The conversion of a name to a shell (`src/bin/shell_completion.rs:33-34`), with names in lower case that are compared without case. -/
def Shell.parse (name : Bytes) : Option Shell :=
  let lower := name.map lowerByte
  if lower = ascii "bash" then some .bash
  else if lower = ascii "elvish" then some .elvish
  else if lower = ascii "fish" then some .fish
  else if lower = ascii "powershell" then some .powershell
  else if lower = ascii "zsh" then some .zsh
  else none

/-- What the program knows about its environment: environment variables, `home_dir()` and the name of the parent process, which is `none` if
it cannot be found out. -/
structure Env where
  var : Bytes → Option Bytes
  home : Option Bytes
  parent : Option Bytes

/-- The errors of `get_parent_shell`. -/
inductive Error
  | noParent
  | unsupported (name : Bytes)
deriving DecidableEq, Repr

/-- `get_parent_shell` (`src/bin/shell_completion.rs:88-111`). -/
def parentShell (env : Env) : Outcome Error Shell :=
  match env.parent with
  | none => .err .noParent
  | some name =>
    match Shell.parse name with
    | none => .err (.unsupported name)
    | some shell => .ok shell

/-- The choice of the shell in `main` (`src/bin/shell_completion.rs:73-76`). -/
def selectShell (env : Env) : Option Shell → Outcome Error Shell
  | some shell => .ok shell
  | none => parentShell env

/-- The path in `gen_bash_outfile` (`src/bin/shell_completion.rs:113-134`); no result stands for a panic. -/
def bashOutfile (env : Env) : Option Bytes :=
  let dir := match env.var (ascii "$BASH_COMPLETION_USER_DIR") with
    | some dir => some dir
    | none =>
      match env.var (ascii "XDG_DATA_HOME") with
      | some dir => some (Path.fromPair dir (ascii "bash-completion"))
      | none => env.home.map fun home =>
        [ascii ".local", ascii "share", ascii "bash-completion", ascii "completions"].foldl Path.push home
  dir.map fun dir => Path.push dir (ascii "cres.bash")

/-- The path in `gen_fish_outfile` (`src/bin/shell_completion.rs:136-150`). -/
def fishOutfile (env : Env) : Option Bytes :=
  let dir := match env.var (ascii "XDG_DATA_HOME") with
    | some dir => some dir
    | none => env.home.map fun home => [ascii ".local", ascii "share"].foldl Path.push home
  dir.map fun dir => [ascii "fish", ascii "vendor_completions.d", ascii "cres,fish"].foldl Path.push dir

/-- `gen_completion` (`src/bin/shell_completion.rs:56-70`): what is written. -/
def genCompletion (script : Shell → Bytes → Bytes) (shell : Shell) : Bytes :=
  script shell (ascii "cres") ++ script shell (ascii "cres-partition") ++ script shell (ascii "cres-classify-events")

/-- `create_file` (`src/bin/shell_completion.rs:152-156`) and writing to the file. -/
def writeFile (cwd : List Bytes) (content : Bytes) (fs : FS (List Bytes)) : Option Bytes → Outcome Error Bytes × FS (List Bytes)
  | none => (.panic, fs)
  | some path => (.ok [], fs.create (Path.locate cwd path) content)

/-- `main` (`src/bin/shell_completion.rs:72-86`): what is written to standard output, and the files. -/
def main (script : Shell → Bytes → Bytes) (cwd : List Bytes) (env : Env) (arg : Option Shell) (fs : FS (List Bytes)) :
    Outcome Error Bytes × FS (List Bytes) :=
  match selectShell env arg with
  | .err e => (.err e, fs)
  | .panic => (.panic, fs)
  | .ok shell =>
    match shell with
    | .bash => writeFile cwd (genCompletion script .bash) fs (bashOutfile env)
    | .elvish => (.ok (genCompletion script .elvish), fs)
    | .fish => writeFile cwd (genCompletion script .fish) fs (fishOutfile env)
    | .powershell => (.ok (genCompletion script .powershell), fs)
    | .zsh => (.ok (genCompletion script .zsh), fs)

end Cres.Completion
