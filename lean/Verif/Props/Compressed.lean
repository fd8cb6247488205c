import Verif.Proofs.Compressed
import Verif.Props.CrashMain

/-!
C95: compressed files.
-/

set_option linter.unusedSectionVars false

namespace Cres

open Spec CombinedIO Program Cres.Path

section

variable {K V D P : Type*} [Zero D] [Zero K] [One K] [Add K] [Mul K] [Div K] [NatCast K] [LinearOrder K] [LinearOrder V]
  [DecidableEq P]

theorem run_compressed {p : Program K V D} {files : List (P × P)} (hf : GoodFiles files) {enc : Encoder} {raw raw' fs fs' : FS P}
    {events : Option (List (Event K V))} {ws : Option (List (Weights K))} {res : Outcome (CresError IOError) Unit}
    (h : p.Run files fs events ws res fs') {n : Nat} (hr : p.ReadsAll files fs n)
    (he : Compressed.Exec enc ⟨raw, []⟩ (p.runOps files fs n ws) raw') :
    ∀ q, (raw' q = raw q ∧ fs' q = fs q) ∨
      q ∈ files.map Prod.snd ∧ ∃ ws : List Bytes, fs' q = some ws.flatten ∧ raw' q = some (enc.complete ws) :=
  Compressed.ends_compressed (run_trace h hf.nodup hf.disjoint hr) (Compressed.holds_start raw fs) he

theorem view_of_compressed {codec : Codec} {c : Options.Compression} {outs : List P} {raw raw' fs' : FS P}
    (h : ∀ q, (raw' q = raw q ∧ fs' q = codec.view raw q) ∨
      q ∈ outs ∧ ∃ ws : List Bytes, fs' q = some ws.flatten ∧ raw' q = some ((codec.compressWriter (some c)).complete ws)) :
    codec.view raw' = fs' := by
  funext q
  rcases h q with ⟨h1, h2⟩ | ⟨-, ws, h1, h2⟩
  · rw [h2, Codec.view, h1, Codec.view]
  · rw [Codec.view, h1, h2, Option.map_some, Codec.compressWriter, codec.decompress_complete]

/-- **C95**: compression of files plays no role. Consider a run that reads the (possibly compressed) files `raw` and would leave
the files `fs'` if everything was read and written without compression. If the output is written with compression `c`, no
matter when compressed data are actually passed on to the files, then only output files are changed, and after decompression
all files are as in `fs'`. -/
theorem C95_compressed (codec : Codec) (c : Options.Compression) {p : Program K V D} {files : List (P × P)} (hf : GoodFiles files)
    {raw raw' fs' : FS P} {events : Option (List (Event K V))} {ws : Option (List (Weights K))}
    {res : Outcome (CresError IOError) Unit} (h : p.Run files (codec.view raw) events ws res fs') {n : Nat}
    (hr : p.ReadsAll files (codec.view raw) n)
    (he : Compressed.Exec (codec.compressWriter (some c)) ⟨raw, []⟩ (p.runOps files (codec.view raw) n ws) raw') :
    (∀ q, q ∉ files.map Prod.snd → raw' q = raw q) ∧ codec.view raw' = fs' := by
  have h1 := run_compressed hf h hr he
  refine ⟨fun q hq => ?_, view_of_compressed h1⟩
  rcases h1 q with ⟨h2, -⟩ | ⟨h2, -⟩
  · exact h2
  · exact absurd h2 hq

/-- **C95**, output without compression: output files contain what they should. They can also be read again if they do not
look like compressed files. -/
theorem C95_plain (codec : Codec) {p : Program K V D} {files : List (P × P)} (hf : GoodFiles files)
    {raw raw' fs' : FS P} {events : Option (List (Event K V))} {ws : Option (List (Weights K))}
    {res : Outcome (CresError IOError) Unit} (h : p.Run files (codec.view raw) events ws res fs') {n : Nat}
    (hr : p.ReadsAll files (codec.view raw) n)
    (he : Compressed.Exec (codec.compressWriter none) ⟨raw, []⟩ (p.runOps files (codec.view raw) n ws) raw') :
    (∀ q, q ∉ files.map Prod.snd → raw' q = raw q) ∧
    (∀ q ∈ files.map Prod.snd, raw' q = fs' q ∨ raw' q = raw q ∧ fs' q = codec.view raw q) ∧
    ((∀ q ∈ files.map Prod.snd, ∀ content, fs' q = some content → codec.known content = false) → codec.view raw' = fs') := by
  have h1 := run_compressed hf h hr he
  refine ⟨fun q hq => ?_, fun q hq => ?_, fun hk => ?_⟩
  · rcases h1 q with ⟨h2, -⟩ | ⟨h2, -⟩
    · exact h2
    · exact absurd h2 hq
  · rcases h1 q with h2 | ⟨-, cs, h2, h3⟩
    · exact Or.inr h2
    · exact Or.inl (by rw [h2, h3]; rfl)
  · funext q
    rcases h1 q with ⟨h2, h3⟩ | ⟨h4, cs, h2, h3⟩
    · rw [h3, Codec.view, h2, Codec.view]
    · rw [Codec.view, h3, h2, Option.map_some, Option.some.injEq]
      exact codec.decompress_plain _ (hk q h4 _ h2)

/-- **C95**: if copies of the same input files are compressed in different ways and the output files are compressed in different
ways then the output files are the same after decompression, provided that the random numbers are the same. -/
theorem C95_same (codec : Codec) (c₁ c₂ : Options.Compression) {p : Program K V D} {files : List (P × P)} (hf : GoodFiles files)
    {raw₁ raw₂ raw₁' raw₂' fs' : FS P} (hraw : codec.view raw₁ = codec.view raw₂) {events : Option (List (Event K V))}
    {ws : Option (List (Weights K))} {res : Outcome (CresError IOError) Unit}
    (h : p.Run files (codec.view raw₁) events ws res fs') {n : Nat} (hr : p.ReadsAll files (codec.view raw₁) n)
    (he₁ : Compressed.Exec (codec.compressWriter (some c₁)) ⟨raw₁, []⟩ (p.runOps files (codec.view raw₁) n ws) raw₁')
    (he₂ : Compressed.Exec (codec.compressWriter (some c₂)) ⟨raw₂, []⟩ (p.runOps files (codec.view raw₂) n ws) raw₂') :
    codec.view raw₁' = codec.view raw₂' := by
  rw [(C95_compressed codec c₁ hf h hr he₁).2]
  rw [hraw] at h hr
  rw [(C95_compressed codec c₂ hf h hr he₂).2]

/-- **C95**: if a run with compressed files is interrupted at any time or writing fails, then only output files are changed, and
the program can be run again: all later runs, also with other settings, are as they would be if the run had not taken
place. -/
theorem C95_interrupted (codec : Codec) {p p' : Program K V D} {files : List (P × P)} (hf : GoodFiles files)
    {raw raw' fs' : FS P} {events : Option (List (Event K V))} {ws : Option (List (Weights K))}
    {res : Outcome (CresError IOError) Unit} (h : p.Run files (codec.view raw) events ws res fs') {n : Nat}
    (hr : p.ReadsAll files (codec.view raw) n)
    (he : Compressed.Faulty ⟨raw, []⟩ (p.runOps files (codec.view raw) n ws) raw') :
    (∀ q, q ∉ files.map Prod.snd → raw' q = raw q) ∧
    (∀ events' ws' g, p'.Run files (codec.view raw') events' ws' (.ok ()) g ↔
      p'.Run files (codec.view raw) events' ws' (.ok ()) g) ∧
    ∀ events' ws' res', (∃ g, p'.Run files (codec.view raw') events' ws' res' g) ↔
      ∃ g, p'.Run files (codec.view raw) events' ws' res' g := by
  have h0 : ∀ q, q ∉ files.map Prod.snd → raw' q = raw q :=
    Compressed.faulty_other he (run_trace h hf.nodup hf.disjoint hr).create_mem (by simp)
  have hother : ∀ q, q ∉ files.map Prod.snd → codec.view raw' q = codec.view raw q := fun q hq => by
    rw [Codec.view, h0 q hq, Codec.view]
  have hother' : ∀ q, q ∉ files.map Prod.snd → codec.view raw q = codec.view raw' q := fun q hq => (hother q hq).symm
  refine ⟨h0, fun events' ws' g => ⟨fun k => ?_, fun k => ?_⟩, fun events' ws' res' => ⟨fun ⟨g, k⟩ => ?_, fun ⟨g, k⟩ => ?_⟩⟩
  · obtain ⟨g', k1, -, k2⟩ := run_alike hf.disjoint hother k
    rw [← k2 (Or.inr rfl)]
    exact k1
  · obtain ⟨g', k1, -, k2⟩ := run_alike hf.disjoint hother' k
    rw [← k2 (Or.inr rfl)]
    exact k1
  · obtain ⟨g', k1, -⟩ := run_alike hf.disjoint hother k
    exact ⟨g', k1⟩
  · obtain ⟨g', k1, -⟩ := run_alike hf.disjoint hother' k
    exact ⟨g', k1⟩

/-- **C95**: there are such runs. -/
theorem C95_possible (codec : Codec) (c : Option Options.Compression) {p : Program K V D} {files : List (P × P)}
    (hf : GoodFiles files) {raw fs' : FS P} {events : Option (List (Event K V))} {ws : Option (List (Weights K))}
    {res : Outcome (CresError IOError) Unit} (h : p.Run files (codec.view raw) events ws res fs') {n : Nat}
    (hr : p.ReadsAll files (codec.view raw) n) :
    ∃ raw', Compressed.Exec (codec.compressWriter c) ⟨raw, []⟩ (p.runOps files (codec.view raw) n ws) raw' :=
  Compressed.ends_possible (run_trace h hf.nodup hf.disjoint hr) ⟨raw, []⟩ (fun _ _ h => by cases h)

end

section

variable {K V D : Type*} [Zero D] [DistNum D] [Zero K] [One K] [Add K] [Mul K] [Div K] [NatCast K] [Neg K] [LinearOrder K]
  [LinearOrder V]

/-- **C95** for runs of the command line program: with output compression `c` only files in the output directory that have the
name of an input file are changed, and after decompression all files are as they would be without compression. -/
theorem C95_main (codec : Codec) (c : Options.Compression) {s : CresSettings K V D} {cwd : List Bytes} {outdir : Bytes}
    {ins : List (Bytes × Bytes)} (hg : GoodPaths cwd outdir ins) {raw raw' fs' : FS (List Bytes)} {ws : Option (List (Weights K))}
    {res : Outcome MainError Unit}
    (h : MainRun s cwd outdir (ins.map fun x => x.1 ++ x.2) (codec.view raw) ws res fs') {n : Nat}
    (hr : MainReadsAll s cwd outdir (ins.map fun x => x.1 ++ x.2) (codec.view raw) n)
    (he : Compressed.Exec (codec.compressWriter (some c)) ⟨raw, []⟩
      (mainOps s cwd outdir (ins.map fun x => x.1 ++ x.2) (codec.view raw) n ws) raw') :
    (∀ q, (∀ x ∈ ins, q ≠ locate cwd outdir ++ [x.2]) → raw' q = raw q) ∧ codec.view raw' = fs' := by
  have hno : ∀ {raw' : FS (List Bytes)}, Compressed.Exec (codec.compressWriter (some c)) ⟨raw, []⟩ [] raw' → raw' = raw := by
    intro raw' he
    have := Compressed.exec_finished (outs := []) (st := ⟨raw, none, []⟩) he (Compressed.holds_start raw raw)
    funext q
    rcases this q with ⟨h, -⟩ | ⟨h, -⟩
    · exact h
    · exact absurd h (by simp)
  cases h with
  | scalingErr h | scalingPanic h =>
    simp only [mainOps, h] at he
    rw [hno he]
    exact ⟨fun _ _ => rfl, rfl⟩
  | run h1 h2 =>
    simp only [mainOps, h1] at he
    obtain ⟨g1, g2⟩ := hg.prepared h1
    obtain ⟨g3, g4⟩ := C95_compressed codec c g1 h2 (hr _ _ h1) he
    refine ⟨fun q hq => g3 q fun hm => ?_, g4⟩
    obtain ⟨x, hx, rfl⟩ := g2 q hm
    exact hq x hx rfl

end

/-! ### example -/

/-- A simple way to compress data: a signature, and the bytes in reverse order, which can only be written at the end. -/
def exEncoder : Encoder where
  out _ := [31]
  complete ws := 31 :: ws.flatten.reverse
  grows _ _ := List.prefix_rfl
  ends ws := ⟨ws.flatten.reverse, rfl⟩

def exCodec : Codec where
  encoder _ := exEncoder
  decompress
    | [] => []
    | b :: s => if b = 31 then s.reverse else b :: s
  known s := s.head? = some 31
  decompress_plain s h := by
    cases s with
    | nil => rfl
    | cons b s =>
      simp only [List.head?_cons, Option.some.injEq, decide_eq_false_iff_not] at h
      simp only [if_neg h]
  decompress_complete c ws := by simp [exEncoder]

/-- The files of the example run. The first one is compressed. -/
def exRaw : FS ℕ := Function.update exProgFS 0 ((exProgFS 0).map fun s => 31 :: s.reverse)

theorem exRaw_view : exCodec.view exRaw = exProgFS := by
  funext q
  unfold Codec.view exRaw
  by_cases h0 : q = 0
  · subst h0
    rw [Function.update_self, Option.map_map]
    cases exProgFS 0 with
    | none => rfl
    | some s => simp [exCodec]
  · rw [Function.update_of_ne h0]
    by_cases h1 : q = 1
    · subst h1
      decide +kernel
    · have : exProgFS q = none := by
        unfold exProgFS
        simp_all
      rw [this]
      rfl

/-- The hypotheses of `C95_compressed`, `C95_plain`, `C95_same` and `C95_possible` are met by a run with two files of which one is
compressed. -/
example (multi : Bool) (c : Options.Compression) : ∃ fs' raw₁' raw₂', GoodFiles [((0 : ℕ), 10), (1, 11)] ∧
    exRaw 0 ≠ exProgFS 0 ∧ exCodec.view exRaw = exCodec.view exProgFS ∧
    (exSettings multi).program.Run [((0 : ℕ), 10), (1, 11)] (exCodec.view exRaw) (some exProgEvents) (some [[2], [6], [2]])
      (.ok ()) fs' ∧
    (exSettings multi).program.ReadsAll [((0 : ℕ), 10), (1, 11)] (exCodec.view exRaw) 5 ∧
    Compressed.Exec (exCodec.compressWriter (some c)) ⟨exRaw, []⟩ ((exSettings multi).program.runOps [((0 : ℕ), 10), (1, 11)]
      (exCodec.view exRaw) 5 (some [[2], [6], [2]])) raw₁' ∧
    Compressed.Exec (exCodec.compressWriter none) ⟨exRaw, []⟩ ((exSettings multi).program.runOps [((0 : ℕ), 10), (1, 11)]
      (exCodec.view exRaw) 5 (some [[2], [6], [2]])) raw₂' ∧
    fs' 10 = some exProgOut ∧ raw₁' 10 = some (31 :: exProgOut.reverse) ∧ raw₂' 10 = some exProgOut := by
  obtain ⟨fs', h1, h2, -⟩ := exProg_output multi
  have hr := exProg_readsAll multi
  have hv : exCodec.view exProgFS = exProgFS := by
    funext q
    unfold Codec.view
    by_cases h0 : q = 0
    · subst h0; decide +kernel
    · by_cases h1 : q = 1
      · subst h1; decide +kernel
      · rw [show exProgFS q = none by unfold exProgFS; simp_all]; rfl
  rw [← exRaw_view] at h1 hr
  obtain ⟨raw₁', h3⟩ := C95_possible exCodec (some c) exProgGood h1 hr
  obtain ⟨raw₂', h4⟩ := C95_possible exCodec none exProgGood h1 hr
  refine ⟨fs', raw₁', raw₂', exProgGood, by decide +kernel, by rw [exRaw_view, hv], h1, hr, h3, h4, h2, ?_, ?_⟩
  · rcases run_compressed exProgGood h1 hr h3 10 with ⟨-, h5⟩ | ⟨-, ws, h5, h6⟩
    · rw [h2, exRaw_view] at h5
      exact absurd h5 (by decide +kernel)
    · rw [h2, Option.some.injEq] at h5
      rw [h6, h5]
      rfl
  · rcases (C95_plain exCodec exProgGood h1 hr h4).2.1 10 (by simp) with h5 | ⟨-, h5⟩
    · rw [h5, h2]
    · rw [h2, exRaw_view] at h5
      exact absurd h5 (by decide +kernel)

/-- The hypotheses of `C95_interrupted` are met by a run that is interrupted when some data that are not the output are in the
first output file. -/
example (multi : Bool) : ∃ fs',
    (exSettings multi).program.Run [((0 : ℕ), 10), (1, 11)] (exCodec.view exRaw) (some exProgEvents) (some [[2], [6], [2]])
      (.ok ()) fs' ∧
    (exSettings multi).program.ReadsAll [((0 : ℕ), 10), (1, 11)] (exCodec.view exRaw) 5 ∧
    Compressed.Faulty ⟨exRaw, []⟩ ((exSettings multi).program.runOps [((0 : ℕ), 10), (1, 11)] (exCodec.view exRaw) 5
      (some [[2], [6], [2]])) (Function.update exRaw 10 (some [31, 7])) := by
  obtain ⟨fs', h1, -, -⟩ := exProg_output multi
  have hr := exProg_readsAll multi
  rw [← exRaw_view] at h1 hr
  refine ⟨fs', h1, hr, ?_⟩
  have hops : ∃ ops, (exSettings multi).program.runOps [((0 : ℕ), 10), (1, 11)] (exCodec.view exRaw) 5 (some [[2], [6], [2]]) =
      .create 10 :: ops := by
    rw [exRaw_view]
    have : ((exSettings multi).program.runOps [((0 : ℕ), 10), (1, 11)] exProgFS 5 (some [[2], [6], [2]])).head? = some (.create 10) := by
      cases multi <;> decide +kernel
    obtain ⟨ops, hops⟩ := List.head?_eq_some_iff.1 this
    exact ⟨ops, hops⟩
  obtain ⟨ops, hops⟩ := hops
  rw [hops]
  refine .create (.disturbed (files := Function.update exRaw 10 (some [31, 7])) (fun q hq => ?_) .stopped)
  have : q ≠ 10 := fun h => hq _ List.mem_cons_self h.symm
  rw [Function.update_of_ne this]
  exact (Function.update_of_ne this _ _).symm

/-- The hypotheses of `C95_main` are met. -/
example (multi : Bool) (c : Options.Compression) : ∃ res fs' n raw', GoodPaths [ascii "home"] (ascii "out") exMainIns ∧
    MainRun (exMain multi fun _ => none) [ascii "home"] (ascii "out") (exMainIns.map fun x => x.1 ++ x.2)
      (exCodec.view exMainFS) (some [[2], [6], [2]]) res fs' ∧
    MainReadsAll (exMain multi fun _ => none) [ascii "home"] (ascii "out") (exMainIns.map fun x => x.1 ++ x.2)
      (exCodec.view exMainFS) n ∧
    Compressed.Exec (exCodec.compressWriter (some c)) ⟨exMainFS, []⟩ (mainOps (exMain multi fun _ => none) [ascii "home"]
      (ascii "out") (exMainIns.map fun x => x.1 ++ x.2) (exCodec.view exMainFS) n (some [[2], [6], [2]])) raw' := by
  have hv : exCodec.view exMainFS = exMainFS := by
    funext q
    unfold Codec.view exMainFS
    split_ifs <;> rfl
  rw [hv]
  obtain ⟨res, fs', h⟩ := exMain_run multi
  obtain ⟨n, hn⟩ := main_readsAll h
  have hg : GoodPaths [ascii "home"] (ascii "out") exMainIns := ⟨(exMain_inputs multi).paths, (exMain_inputs multi).dirs, (exMain_inputs multi).names⟩
  cases h with
  | run h1 h2 =>
    have hp := C95_possible exCodec (some c) (raw := exMainFS) (hg.prepared h1).1 (by rw [hv]; exact h2)
      (n := n) (by rw [hv]; exact hn _ _ h1)
    rw [hv] at hp
    obtain ⟨raw', h3⟩ := hp
    refine ⟨_, fs', n, raw', hg, .run h1 h2, hn, ?_⟩
    simp only [mainOps, h1]
    exact h3

end Cres
