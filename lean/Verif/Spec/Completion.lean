import Verif.Model.Completion

/-!
Specification for C117: where shells look for completions.

`bash` with the package bash-completion looks for completions of `cmd` in files `cmd`, `cmd.bash` and `_cmd` in
`${BASH_COMPLETION_USER_DIR:-${XDG_DATA_HOME:-$HOME/.local/share}/bash-completion}/completions`. `fish` looks for `cmd.fish` in
`${XDG_DATA_HOME:-$HOME/.local/share}/fish/vendor_completions.d`, as far as user data are concerned. Here `${a:-b}` is `b` if the variable `a` is empty or
not set.
-/

namespace Cres.Spec

open Completion

/-- `${name:-default}`, as a directory. -/
def dirOr (cwd : List Bytes) (env : Env) (name : String) (default : Option (List Bytes)) : Option (List Bytes) :=
  match env.var (ascii name) with
  | none | some [] => default
  | some dir => some (Path.locate cwd dir)

/-- `${XDG_DATA_HOME:-$HOME/.local/share}`. -/
def userData (cwd : List Bytes) (env : Env) : Option (List Bytes) :=
  dirOr cwd env "XDG_DATA_HOME" (env.home.map fun home => Path.locate cwd home ++ [ascii ".local", ascii "share"])

/-- The directory in which `bash` looks for completions. -/
def bashDir (cwd : List Bytes) (env : Env) : Option (List Bytes) :=
  (dirOr cwd env "BASH_COMPLETION_USER_DIR" ((userData cwd env).map (· ++ [ascii "bash-completion"]))).map (· ++ [ascii "completions"])

/-- The directory in which `fish` looks for completions. -/
def fishDir (cwd : List Bytes) (env : Env) : Option (List Bytes) :=
  (userData cwd env).map (· ++ [ascii "fish", ascii "vendor_completions.d"])

/-- The files in which a shell looks for completions for a command. For the other shells users have to say what is done with the
script. -/
def searched (cwd : List Bytes) (env : Env) (cmd : String) : Shell → List (List Bytes)
  | .bash => (bashDir cwd env).toList.flatMap fun d => [d ++ [ascii cmd], d ++ [ascii (cmd ++ ".bash")], d ++ [ascii ("_" ++ cmd)]]
  | .fish => (fishDir cwd env).toList.map fun d => d ++ [ascii (cmd ++ ".fish")]
  | _ => []

/-- The name of a shell. -/
def shellName : Shell → String
  | .bash => "bash"
  | .elvish => "elvish"
  | .fish => "fish"
  | .powershell => "powershell"
  | .zsh => "zsh"

/-- A name is that of the shell, where each letter may be a capital letter (whose code is smaller by 32). -/
def IsShellName (name : Bytes) (shell : Shell) : Prop := List.Forall₂ (fun b c => b = c ∨ b = c - 32) name (ascii (shellName shell))

/-- Bytes that occur somewhere in a text. -/
def Within (part text : Bytes) : Prop := ∃ before after, text = before ++ part ++ after

end Cres.Spec
