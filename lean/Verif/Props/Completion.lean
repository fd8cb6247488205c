import Verif.Spec.Completion
import Verif.Proofs.Paths
import Verif.Proofs.CombinedIO

/-!
# C117: shell completions
-/

namespace Cres

open Spec Completion

instance decidableIsName (n : Bytes) : Decidable (IsName n) := by unfold IsName; infer_instance

theorem locate_push (cwd : List Bytes) (d : Bytes) {n : Bytes} (h : IsName n) :
    Path.locate cwd (Path.push d n) = Path.locate cwd d ++ [n] := by
  have := Path.locate_fromPair cwd (outdir := d) h
  rwa [Path.fromPair, Path.push_nil] at this

theorem within_gen (script : Shell → Bytes → Bytes) (shell : Shell) : Within (script shell (ascii "cres")) (genCompletion script shell) :=
  ⟨[], _, by rw [genCompletion, List.nil_append, List.append_assoc]⟩

/-- **C117**, full statement: if the program for completions succeeds for `bash` or `fish`, the script for `cres` is in a file in which this shell
looks for completions. -/
def C117_claim : Prop :=
  ∀ (script : Shell → Bytes → Bytes) (cwd : List Bytes) (env : Env) (arg : Option Shell) (fs fs' : FS (List Bytes)) (out : Bytes) (shell : Shell),
    selectShell env arg = .ok shell → (shell = .bash ∨ shell = .fish) → Completion.main script cwd env arg fs = (.ok out, fs') →
    ∃ file ∈ searched cwd env "cres" shell, ∃ content, fs' file = some content ∧ Within (script shell (ascii "cres")) content

/-- An environment with a home directory and `XDG_DATA_HOME`. -/
def exCompletionEnv : Env where
  var name := if name = ascii "XDG_DATA_HOME" then some (ascii "/data") else none
  home := some (ascii "/home/user")
  parent := some (ascii "Bash")

/-- **C117** is false: if `XDG_DATA_HOME` is set the script for `bash` is written to `bash-completion` and not to `bash-completion/completions`. -/
theorem C117_violated : ¬ C117_claim := by
  intro h
  obtain ⟨file, hf, content, hc, -⟩ := h (fun _ _ => []) [] exCompletionEnv none (fun _ => none) _ _ .bash rfl (.inl rfl) rfl
  have h1 : searched [] exCompletionEnv "cres" .bash =
      [[ascii "data", ascii "bash-completion", ascii "completions", ascii "cres"],
       [ascii "data", ascii "bash-completion", ascii "completions", ascii "cres.bash"],
       [ascii "data", ascii "bash-completion", ascii "completions", ascii "_cres"]] := by decide +kernel
  have h2 : Path.locate [] ((fun dir => Path.push dir (ascii "cres.bash")) (Path.fromPair (ascii "/data") (ascii "bash-completion"))) =
      [ascii "data", ascii "bash-completion", ascii "cres.bash"] := by decide +kernel
  rw [h2] at hc
  rw [h1] at hf
  have hne : file ≠ [ascii "data", ascii "bash-completion", ascii "cres.bash"] := by
    rintro rfl
    revert hf
    decide +kernel
  rw [FS.create_other _ _ hne] at hc
  exact absurd hc (by simp)

/-- **C117** for `bash` and users who have not changed the directories: the script for `cres` is in a file in which `bash` looks for completions for `cres`. No
other file is changed, and nothing is written to standard output. -/
theorem C117_bash_partial (script : Shell → Bytes → Bytes) (cwd : List Bytes) {env : Env} {arg : Option Shell} (fs : FS (List Bytes))
    {home : Bytes} (hs : selectShell env arg = .ok .bash) (hh : env.home = some home)
    (h1 : env.var (ascii "$BASH_COMPLETION_USER_DIR") = none) (h2 : env.var (ascii "BASH_COMPLETION_USER_DIR") = none)
    (h3 : env.var (ascii "XDG_DATA_HOME") = none) :
    ∃ fs', Completion.main script cwd env arg fs = (.ok [], fs') ∧ ∃ file ∈ searched cwd env "cres" .bash,
      (∃ content, fs' file = some content ∧ Within (script .bash (ascii "cres")) content) ∧ ∀ p, p ≠ file → fs' p = fs p := by
  have hp : bashOutfile env = some ([ascii ".local", ascii "share", ascii "bash-completion", ascii "completions", ascii "cres.bash"].foldl
      Path.push home) := by
    simp only [bashOutfile, h1, h3, hh]
    rfl
  have hl : Path.locate cwd ([ascii ".local", ascii "share", ascii "bash-completion", ascii "completions", ascii "cres.bash"].foldl
      Path.push home) = Path.locate cwd home ++ [ascii ".local", ascii "share"] ++ [ascii "bash-completion"] ++ [ascii "completions"] ++
        [ascii "cres.bash"] := by
    simp only [List.foldl_cons, List.foldl_nil]
    rw [locate_push cwd _ (by decide +kernel), locate_push cwd _ (by decide +kernel), locate_push cwd _ (by decide +kernel),
      locate_push cwd _ (by decide +kernel), locate_push cwd _ (by decide +kernel)]
    simp
  have hd : bashDir cwd env = some (Path.locate cwd home ++ [ascii ".local", ascii "share"] ++ [ascii "bash-completion"] ++
      [ascii "completions"]) := by
    simp only [bashDir, dirOr, userData, h2, h3, hh, Option.map_some]
  refine ⟨_, by simp only [Completion.main, hs, hp, writeFile]; rfl, _, ?_, ⟨_, FS.create_self _ _ _, within_gen _ _⟩, fun p hne => ?_⟩
  · rw [hl]
    simp only [searched, hd, Option.toList_some, List.flatMap_cons, List.flatMap_nil, List.append_nil]
    exact List.mem_cons_of_mem _ (List.mem_cons_self ..)
  · exact FS.create_other _ _ hne

/-- **C117** is false for `fish` in every environment: files in which `fish` looks for completions for `cres` are not changed. -/
theorem C117_fish (script : Shell → Bytes → Bytes) (cwd : List Bytes) {env : Env} {arg : Option Shell} {fs : FS (List Bytes)}
    (hs : selectShell env arg = .ok .fish) : ∀ file ∈ searched cwd env "cres" .fish, (Completion.main script cwd env arg fs).2 file = fs file := by
  intro file hf
  simp only [Completion.main, hs]
  cases hp : fishOutfile env with
  | none => rfl
  | some path =>
    apply FS.create_other
    rintro rfl
    have h1 : ∃ d, path = Path.push d (ascii "cres,fish") := by
      simp only [fishOutfile, Option.map_eq_some_iff] at hp
      obtain ⟨d, -, rfl⟩ := hp
      exact ⟨_, rfl⟩
    obtain ⟨d, rfl⟩ := h1
    rw [locate_push cwd _ (by decide +kernel)] at hf
    simp only [searched, List.mem_map] at hf
    obtain ⟨d', -, h⟩ := hf
    have := (List.append_inj' h rfl).2
    revert this
    decide +kernel

/-- **C117** for `fish`, as far as it is true: the script is in the right directory if `XDG_DATA_HOME` is not empty, and no other file is changed. -/
theorem C117_directory_partial (script : Shell → Bytes → Bytes) (cwd : List Bytes) {env : Env} {arg : Option Shell} (fs : FS (List Bytes))
    {dir : List Bytes} (hs : selectShell env arg = .ok .fish) (hd : fishDir cwd env = some dir)
    (h : env.var (ascii "XDG_DATA_HOME") ≠ some []) :
    ∃ fs', Completion.main script cwd env arg fs = (.ok [], fs') ∧ ∃ name content, fs' (dir ++ [name]) = some content ∧
      Within (script .fish (ascii "cres")) content ∧ ∀ p, p ≠ dir ++ [name] → fs' p = fs p := by
  have key : ∃ path, fishOutfile env = some path ∧ Path.locate cwd path = dir ++ [ascii "cres,fish"] := by
    have hl : ∀ d, Path.locate cwd ([ascii "fish", ascii "vendor_completions.d", ascii "cres,fish"].foldl Path.push d) =
        Path.locate cwd d ++ [ascii "fish", ascii "vendor_completions.d"] ++ [ascii "cres,fish"] := by
      intro d
      simp only [List.foldl_cons, List.foldl_nil]
      rw [locate_push cwd _ (by decide +kernel), locate_push cwd _ (by decide +kernel), locate_push cwd _ (by decide +kernel)]
      simp
    unfold fishDir userData dirOr at hd
    cases hx : env.var (ascii "XDG_DATA_HOME") with
    | none =>
      simp only [hx, Option.map_map, Option.map_eq_some_iff, Function.comp_apply] at hd
      obtain ⟨home, hh, rfl⟩ := hd
      refine ⟨_, by simp only [fishOutfile, hx, hh]; rfl, ?_⟩
      rw [hl]
      simp only [List.foldl_cons, List.foldl_nil]
      rw [locate_push cwd _ (by decide +kernel), locate_push cwd _ (by decide +kernel)]
      simp
    | some d =>
      cases d with
      | nil => exact absurd hx h
      | cons b d =>
        simp only [hx, Option.map_some, Option.some.injEq] at hd
        refine ⟨_, by simp only [fishOutfile, hx]; rfl, ?_⟩
        rw [hl, ← hd]
  obtain ⟨path, hp, hl⟩ := key
  refine ⟨_, by simp only [Completion.main, hs, hp, writeFile]; rfl, ascii "cres,fish", genCompletion script .fish, ?_, within_gen _ _, fun p hne => ?_⟩
  · rw [hl]; exact FS.create_self _ _ _
  · rw [hl]; exact FS.create_other _ _ hne

/-- **C117**: for the other shells the scripts of all three programs are written to standard output and no file is changed. -/
theorem C117_stdout_partial (script : Shell → Bytes → Bytes) (cwd : List Bytes) {env : Env} {arg : Option Shell} (fs : FS (List Bytes))
    {shell : Shell} (hs : selectShell env arg = .ok shell) (h1 : shell ≠ .bash) (h2 : shell ≠ .fish) :
    ∃ out, Completion.main script cwd env arg fs = (.ok out, fs) ∧
      ∀ cmd ∈ ["cres", "cres-partition", "cres-classify-events"], Within (script shell (ascii cmd)) out := by
  have hw : ∀ cmd ∈ ["cres", "cres-partition", "cres-classify-events"], Within (script shell (ascii cmd)) (genCompletion script shell) := by
    intro cmd hc
    simp only [List.mem_cons, List.not_mem_nil, or_false] at hc
    obtain rfl | rfl | rfl := hc
    · exact within_gen _ _
    · exact ⟨_, _, rfl⟩
    · exact ⟨_, [], by rw [genCompletion, List.append_nil]⟩
  cases shell with
  | bash => exact absurd rfl h1
  | fish => exact absurd rfl h2
  | elvish => exact ⟨_, by simp only [Completion.main, hs], hw⟩
  | powershell => exact ⟨_, by simp only [Completion.main, hs], hw⟩
  | zsh => exact ⟨_, by simp only [Completion.main, hs], hw⟩

theorem lowerByte_iff {b c : UInt8} (h1 : 97 ≤ c) (h2 : c ≤ 122) : lowerByte b = c ↔ b = c ∨ b = c - 32 := by
  unfold lowerByte
  simp only [← UInt8.toNat_inj, UInt8.le_iff_toNat_le, UInt8.toNat_sub] at *
  have hb := b.toNat_lt
  have hc := c.toNat_lt
  have e1 : (65 : UInt8).toNat = 65 := rfl
  have e2 : (90 : UInt8).toNat = 90 := rfl
  have e3 : (97 : UInt8).toNat = 97 := rfl
  have e4 : (122 : UInt8).toNat = 122 := rfl
  have e5 : (32 : UInt8).toNat = 32 := rfl
  split_ifs with h
  · rw [UInt8.toNat_add]
    omega
  · omega

theorem isShellName_iff (name : Bytes) (shell : Shell) : IsShellName name shell ↔ name.map lowerByte = ascii (shellName shell) := by
  have key : ∀ (l name : Bytes), (∀ c ∈ l, 97 ≤ c ∧ c ≤ 122) →
      (List.Forall₂ (fun b c => b = c ∨ b = c - 32) name l ↔ name.map lowerByte = l) := by
    intro l
    induction l with
    | nil => intro name _; simp
    | cons c l ih =>
      intro name h
      have hc := h c List.mem_cons_self
      cases name with
      | nil => simp
      | cons b name =>
        rw [List.forall₂_cons, List.map_cons, List.cons.injEq, ih name fun x hx => h x (List.mem_cons_of_mem _ hx),
          lowerByte_iff hc.1 hc.2]
  exact key _ _ (by cases shell <;> decide +kernel)

/-- **C117**: the shell is the one that is asked for, or else the parent process, whose name may be in capital letters. If there is no such shell
nothing is written. -/
theorem C117_shell_partial (script : Shell → Bytes → Bytes) (cwd : List Bytes) (env : Env) (fs : FS (List Bytes)) :
    (∀ shell, selectShell env (some shell) = .ok shell) ∧
    (∀ name shell, env.parent = some name → IsShellName name shell → selectShell env none = .ok shell) ∧
    (∀ name, env.parent = some name → (∀ shell, ¬ IsShellName name shell) →
      Completion.main script cwd env none fs = (.err (.unsupported name), fs)) ∧
    (env.parent = none → Completion.main script cwd env none fs = (.err .noParent, fs)) := by
  refine ⟨fun _ => rfl, fun name shell h hb => ?_, fun name h hn => ?_, fun h => ?_⟩
  on_goal 1 => rw [isShellName_iff] at hb
  on_goal 2 => simp only [isShellName_iff] at hn
  · have hp : Shell.parse name = some shell := by
      unfold Shell.parse
      simp only [hb]
      cases shell <;> decide +kernel
    simp only [selectShell, parentShell, h, hp]
  · have hp : Shell.parse name = none := by
      unfold Shell.parse
      have h1 := hn .bash
      have h2 := hn .elvish
      have h3 := hn .fish
      have h4 := hn .powershell
      have h5 := hn .zsh
      simp only [shellName] at h1 h2 h3 h4 h5
      simp only [h1, h2, h3, h4, h5, if_false]
    simp only [Completion.main, selectShell, parentShell, h, hp]
  · simp only [Completion.main, selectShell, parentShell, h]

/-- A user with a home directory and no variables. -/
example :
    let env : Env := ⟨fun _ => none, some (ascii "/home/user"), some (ascii "Bash")⟩
    selectShell env none = .ok .bash ∧ env.home = some (ascii "/home/user") ∧ env.var (ascii "$BASH_COMPLETION_USER_DIR") = none ∧
      env.var (ascii "BASH_COMPLETION_USER_DIR") = none ∧ env.var (ascii "XDG_DATA_HOME") = none ∧
      (bashOutfile env).map (Path.locate []) =
        some [ascii "home", ascii "user", ascii ".local", ascii "share", ascii "bash-completion", ascii "completions", ascii "cres.bash"] := by
  refine ⟨by decide +kernel, rfl, rfl, rfl, rfl, by decide +kernel⟩

/-- A user of `fish`. -/
example :
    selectShell exCompletionEnv (some .fish) = .ok .fish ∧
      fishDir [] exCompletionEnv = some [ascii "data", ascii "fish", ascii "vendor_completions.d"] ∧
      exCompletionEnv.var (ascii "XDG_DATA_HOME") ≠ some [] ∧
      searched [] exCompletionEnv "cres" .fish = [[ascii "data", ascii "fish", ascii "vendor_completions.d", ascii "cres.fish"]] := by
  refine ⟨rfl, by decide +kernel, by decide +kernel, by decide +kernel⟩

/-- A parent process that is not a shell. -/
example : ∀ shell, ¬ IsShellName (ascii "-Bash") shell := by
  intro shell
  rw [isShellName_iff]
  cases shell <;> decide +kernel

/-- Names with capital letters. -/
example : IsShellName (ascii "ZSH") .zsh ∧ IsShellName (ascii "Bash") .bash := by
  simp only [isShellName_iff]
  decide +kernel

end Cres
