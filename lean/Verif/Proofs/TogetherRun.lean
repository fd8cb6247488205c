import Verif.Proofs.Together

/-!
Runs of the program as computations: they only use their own files, and have the same results as in the rest of the model
if they are alone.
-/

namespace Cres

open CombinedIO

variable {K V D P : Type*} [DecidableEq P]

/-! ### files that are used -/

section Local

variable {I O : P → Prop}

/-- The files of an I/O object are among the given ones. -/
structure StateOk (I O : P → Prop) (s : CombinedIO K P) : Prop where
  files : ∀ f ∈ s.files, I f.1 ∧ O f.2
  current : ∀ io, s.current = some io → O io.outfile

theorem append_local {A : Type*} {Q : A → Prop} {out : P} (ho : O out) (data : Bytes) {p : Proc (FS P) A} (h : p.Local I O Q) :
    (Proc.access (fun fs : FS P => fs.append out data) fun _ => p).Local I O Q := by
  refine .access (fun fs q hq => ?_) (fun fs fs' h => ⟨fun q hq => ?_, rfl⟩) fun _ => h
  · refine Function.update_of_ne ?_ _ _
    rintro rfl
    exact hq ho
  · simp only [FS.append]
    rw [h out (.inr ho)]
    by_cases hn : q = out
    · rw [hn, Function.update_self, Function.update_self]
    · rw [Function.update_of_ne hn, Function.update_of_ne hn]
      exact h q (.inr hq)

theorem create_local {A : Type*} {Q : A → Prop} {out : P} (ho : O out) (data : Bytes) {p : Proc (FS P) A} (h : p.Local I O Q) :
    (Proc.access (fun fs : FS P => fs.create out data) fun _ => p).Local I O Q := by
  refine .access (fun fs q hq => ?_) (fun fs fs' h => ⟨fun q hq => ?_, rfl⟩) fun _ => h
  · refine Function.update_of_ne ?_ _ _
    rintro rfl
    exact hq ho
  · simp only [FS.create]
    by_cases hn : q = out
    · rw [hn, Function.update_self, Function.update_self]
    · rw [Function.update_of_ne hn, Function.update_of_ne hn]
      exact h q (.inr hq)

omit [DecidableEq P] in
theorem read_local {A : Type*} {Q : A → Prop} {inn : P} (hi : I inn) {k : FS P → Proc (FS P) A}
    (hk : ∀ fs fs' : FS P, fs inn = fs' inn → k fs = k fs') (h : ∀ fs, (k fs).Local I O Q) : (Proc.access id k).Local I O Q :=
  .access (fun _ _ _ => rfl) (fun _ _ h => ⟨fun q hq => h q (.inr hq), hk _ _ (h inn (.inl hi))⟩) h

theorem openProc_local (cfg : IOConfig K V) (i : Nat) {s : CombinedIO K P} (hs : StateOk I O s) :
    (s.openProc cfg i).Local I O fun x => StateOk I O x.2 := by
  unfold openProc
  cases h : s.files[i]? with
  | none => exact .done hs
  | some f =>
    obtain ⟨inn, out⟩ := f
    obtain ⟨hi, ho⟩ := hs.files _ (List.mem_of_getElem? h)
    refine read_local (inn := inn) hi (fun fs fs' h => by simp only [h]) fun fs => ?_
    cases fs inn with
    | none => exact .done hs
    | some content =>
      simp only
      cases detectFormat cfg.feat (some (cfg.firstBuffer content)) with
      | err e => exact .done hs
      | panic => exact .done hs
      | ok format =>
        simp only
        cases Reader.new cfg content format with
        | err e => exact .done hs
        | panic => exact .done hs
        | ok reader =>
          refine create_local ho _ (append_local ho _ ?_)
          cases Kind.find cfg reader.header format with
          | err e => exact .done hs
          | panic => exact .done hs
          | ok kind =>
            refine .done ⟨hs.files, fun io hio => ?_⟩
            simp only [Option.some.injEq] at hio
            rw [← hio]
            exact ho

theorem initProc_local (cfg : IOConfig K V) : ∀ (n i : Nat) {s : CombinedIO K P}, StateOk I O s →
    (initProc cfg n i s).Local I O fun x => StateOk I O x.2
  | 0, _, _, hs => .done hs
  | n + 1, i, s, hs => by
    rw [initProc]
    refine (openProc_local cfg i hs).bind fun x hx => ?_
    obtain ⟨o, s'⟩ := x
    cases o with
    | err e => exact .done hx
    | panic => exact .done hx
    | ok u =>
      simp only
      cases hc : s'.current with
      | none => exact .done hx
      | some io => exact initProc_local cfg n (i + 1) ⟨hx.files, fun io' h => hx.current io' (hc.trans h)⟩

theorem newProc_local (cfg : IOConfig K V) {files : List (P × P)} (hf : ∀ f ∈ files, I f.1 ∧ O f.2) :
    (newProc cfg files).Local I O fun x => StateOk I O x.2 := by
  have hs : StateOk I O (⟨files, none, 0, 0, (0, some 0)⟩ : CombinedIO K P) := ⟨hf, by simp⟩
  rw [newProc]
  by_cases h : files = []
  · simp only [h, if_true]
    rw [h] at hs
    exact .done hs
  · simp only [h, if_false]
    refine (initProc_local cfg _ 0 hs).bind fun x hx => ?_
    obtain ⟨o, s'⟩ := x
    cases o with
    | err e => exact .done hx
    | panic => exact .done hx
    | ok u => exact openProc_local cfg 0 hx

theorem nextProc_local [Mul K] (cfg : IOConfig K V) : ∀ (n : Nat) {s : CombinedIO K P}, StateOk I O s →
    (nextProc cfg n s).Local I O fun x => StateOk I O x.2
  | 0, _, hs => .done hs
  | n + 1, s, hs => by
    have hcont : ∀ x : Outcome IOError Unit × CombinedIO K P, StateOk I O x.2 →
        Proc.Local I O (fun x : Option (Outcome IOError Bytes) × CombinedIO K P => StateOk I O x.2) (match x with
          | (.ok (), s) => nextProc cfg n s
          | (.err e, s) => .done (some (.err e), s)
          | (.panic, s) => .done (some .panic, s)) := by
      rintro ⟨o, s'⟩ hx
      cases o with
      | err e => exact .done hx
      | panic => exact .done hx
      | ok u => exact nextProc_local cfg n hx
    rw [nextProc]
    cases hc : s.current with
    | none =>
      simp only
      by_cases h : s.files = []
      · simp only [h, if_true]
        exact .done hs
      · simp only [h, if_false]
        exact (openProc_local cfg 0 hs).bind hcont
    | some io =>
      have hio : ∀ io' : FileIO K P, io'.outfile = io.outfile → StateOk I O { s with current := some io' } := by
        intro io' h
        refine ⟨hs.files, fun io'' h' => ?_⟩
        simp only [Option.some.injEq] at h'
        rw [← h', h]
        exact hs.current io hc
      have hn : (io.next cfg).2.outfile = io.outfile := rfl
      simp only
      rcases hx : io.next cfg with ⟨_ | x, io'⟩
      · rw [hx] at hn
        simp only
        by_cases h : s.idx + 1 = s.files.length
        · simp only [h, if_true]
          exact .done (hio io' hn)
        · simp only [h, if_false]
          exact (openProc_local cfg _ (hio io' hn)).bind hcont
      · rw [hx] at hn
        exact .done ⟨(hio io' hn).files, (hio io' hn).current⟩

theorem recordProc_local [Mul K] (cfg : IOConfig K V) : ∀ (n : Nat) {s : CombinedIO K P}, StateOk I O s →
    (s.recordProc cfg n).Local I O fun x => StateOk I O x.2
  | 0, _, hs => .done hs
  | n + 1, s, hs => by
    rw [recordProc]
    refine (nextProc_local cfg _ hs).bind fun x hx => ?_
    obtain ⟨o, s'⟩ := x
    cases o with
    | none => exact .done hx
    | some o =>
      cases o with
      | err e => exact .done hx
      | panic => exact .done hx
      | ok r =>
        simp only
        cases s'.current with
        | none => exact .done hx
        | some io => exact (recordProc_local cfg n hx).bind fun x hx => .done hx

theorem updateNextProc_local [Div K] (cfg : IOConfig K V) (ws : List K) {io : FileIO K P} (ho : O io.outfile) :
    (io.updateProc cfg ws).Local I O fun x => O x.2.outfile := by
  unfold FileIO.updateProc
  cases (io.reader.readRaw cfg.ctx.debug io.kind.format).1 with
  | none => exact .done ho
  | some x =>
    simp only
    cases x.bind (io.kind.update cfg ws) with
    | ok r => exact append_local ho _ (.done ho)
    | err e => exact .done ho
    | panic => exact .done ho

theorem finishProc_local {io : FileIO K P} (ho : O io.outfile) : io.finishProc.Local I O fun _ => True := by
  unfold FileIO.finishProc
  cases io.kind with
  | lhef => exact append_local ho _ (.done trivial)
  | hepmc2 => exact .done trivial
  | stripperXml _ => exact .done trivial

theorem whileProc_local [Div K] (cfg : IOConfig K V) : ∀ (ws : List (List K)) {io : FileIO K P}, O io.outfile →
    (whileProc cfg ws io).Local I O fun x => O x.2.outfile
  | [], _, ho => .done ho
  | w :: ws, io, ho => by
    rw [whileProc]
    refine (updateNextProc_local cfg w ho).bind fun x hx => ?_
    obtain ⟨o, io'⟩ := x
    cases o with
    | err e => exact .done hx
    | panic => exact .done hx
    | ok b =>
      cases b with
      | false => exact .done hx
      | true => exact whileProc_local cfg ws hx

theorem filesProc_local [Div K] (cfg : IOConfig K V) : ∀ (n i : Nat) (ws : List (List K)) {s : CombinedIO K P}, StateOk I O s →
    (filesProc cfg n i ws s).Local I O fun _ => True
  | 0, _, _, _, _ => .done trivial
  | n + 1, i, ws, s, hs => by
    rw [filesProc]
    refine (openProc_local cfg i hs).bind fun x hx => ?_
    obtain ⟨o, s'⟩ := x
    cases o with
    | err e => exact .done trivial
    | panic => exact .done trivial
    | ok u =>
      simp only
      cases hc : s'.current with
      | none => exact .done trivial
      | some io =>
        refine (whileProc_local cfg ws (hx.current io hc)).bind fun y hy => ?_
        obtain ⟨o', io'⟩ := y
        cases o' with
        | err e => exact .done trivial
        | panic => exact .done trivial
        | ok ws' =>
          refine (finishProc_local hy).bind fun _ _ => filesProc_local cfg n (i + 1) ws' ⟨hx.files, fun io'' h => ?_⟩
          simp only [Option.some.injEq] at h
          rw [← h]
          exact hy

theorem updateProc_local [Div K] (cfg : IOConfig K V) (ws : List (List K)) {s : CombinedIO K P} (hs : StateOk I O s) :
    (s.updateProc cfg ws).Local I O fun _ => True :=
  (filesProc_local cfg _ 0 ws (s := s.rewind) ⟨hs.files, fun io h => by cases h⟩).bind fun _ _ => .done trivial

omit [DecidableEq P] in
theorem scanProc_local (cfg : IOConfig K V) : ∀ {files : List (Option (P × P))}, (∀ f, some f ∈ files → I f.1 ∧ O f.2) →
    (scanProc cfg files).Local I O fun x => ∀ l, x = .ok l → ∀ f ∈ l, some f.1 ∈ files
  | [], _ => .done fun l h f hf => by cases h; cases hf
  | none :: _, _ => .done fun l h => by cases h
  | some f :: files, h => by
    rw [scanProc]
    refine read_local (inn := f.1) (h f (by simp)).1 (fun fs fs' h => by simp only [h]) fun fs => ?_
    cases fs f.1 with
    | none => exact .done (by simp)
    | some content =>
      simp only
      generalize (if ascii "<?xml" <+: trimAsciiStart (cfg.firstBuffer content) then (cfg.xmlInfo content).map some
        else Outcome.ok none) = o
      cases o with
      | err e => exact .done (by simp)
      | panic => exact .done (by simp)
      | ok tag =>
        refine (scanProc_local cfg fun f hf => h f (List.mem_cons_of_mem _ hf)).bind fun x hx => .done fun l hl => ?_
        cases x with
        | err e => cases hl
        | panic => cases hl
        | ok l' =>
          simp only [Outcome.map, Outcome.ok.injEq] at hl
          subst hl
          intro g hg
          rcases List.mem_cons.1 hg with rfl | hg
          · exact List.mem_cons_self ..
          · exact List.mem_cons_of_mem _ (hx l' rfl g hg)

omit [DecidableEq P] in
theorem prepareProc_local [Zero K] [One K] [Neg K] [Div K] [NatCast K] (cfg : IOConfig K V) {files : List (Option (P × P))}
    (h : ∀ f, some f ∈ files → I f.1 ∧ O f.2) :
    (prepareProc cfg files).Local I O fun x => ∀ l io, x = .ok (l, io) → ∀ f ∈ l, I f.1 ∧ O f.2 := by
  unfold prepareProc
  by_cases hx : cfg.feat.stripperXml = true
  · simp only [hx, if_true]
    refine (scanProc_local cfg h).bind fun x hx => .done fun l io hl f hf => ?_
    cases x with
    | err e => cases hl
    | panic => cases hl
    | ok l' =>
      simp only [Outcome.map, Outcome.ok.injEq, Prod.mk.injEq] at hl
      obtain ⟨rfl, -⟩ := hl
      simp only [Stripper.extractScaling, List.mem_map, List.mem_filter] at hf
      obtain ⟨y, ⟨hy, -⟩, rfl⟩ := hf
      exact h y.1 (hx l' rfl y hy)
  · simp only [hx]
    by_cases h' : files.all Option.isSome = true
    · simp only [h', if_true, if_false, Bool.false_eq_true]
      refine .done fun l io hl f hf => ?_
      simp only [Outcome.ok.injEq, Prod.mk.injEq] at hl
      obtain ⟨rfl, -⟩ := hl
      exact h f (by simpa using hf)
    · simp only [h', if_false, Bool.false_eq_true]
      exact .done (by simp)

end Local

section Program

variable [Zero D] [Zero K] [One K] [Add K] [Mul K] [Div K] [NatCast K] [LinearOrder K] [LinearOrder V]

theorem programProc_local {I O : P → Prop} (p : Program K V D) {files : List (P × P)} (hf : ∀ f ∈ files, I f.1 ∧ O f.2) (n : Nat)
    (c : p.Choice) : (p.proc files n c).Local I O fun _ => True := by
  refine (newProc_local p.io hf).bind fun x hx => ?_
  obtain ⟨o, s⟩ := x
  cases o with
  | err e => exact .done trivial
  | panic => exact .done trivial
  | ok u =>
    refine (recordProc_local p.io n hx).bind fun y hy => ?_
    obtain ⟨o', s'⟩ := y
    cases o' with
    | none => exact .done trivial
    | some o' =>
      cases o' with
      | err e => exact e.elim
      | panic => exact .done trivial
      | ok items =>
        simp only
        cases c.read items with
        | none => exact .done trivial
        | some r =>
          cases r with
          | err e => exact .done trivial
          | panic => exact .done trivial
          | ok events =>
            simp only
            cases c.weights events with
            | none => exact .done trivial
            | some r =>
              cases r with
              | err e => exact .done trivial
              | panic => exact .done trivial
              | ok ws => exact (updateProc_local p.io ws hy).bind fun _ _ => .done trivial

theorem mapErr_unit (x : Outcome IOError Nat) :
    ((x.map fun _ => ()).mapErr CresError.io : Outcome (CresError IOError) Unit) = (x.mapErr CresError.io).map fun _ => () := by
  cases x <;> rfl

theorem programProc_run {p : Program K V D} {files : List (P × P)} {n : Nat} {c : p.Choice} {fs g : FS P}
    {ws : Option (List (Weights K))} {res : Outcome (CresError IOError) Unit}
    (h : (p.proc files n c).run fs = (some (ws, res), g)) : ∃ events, p.Run files fs events ws res g := by
  rw [Program.proc, Proc.run_bind] at h
  have hnew := newProc_run p.io files fs
  generalize (newProc p.io files).run fs = x at h hnew
  obtain ⟨⟨o, s⟩, fs1⟩ := x
  cases o with
  | err e => cases h; exact ⟨_, .createErr hnew⟩
  | panic => cases h; exact ⟨_, .createPanic hnew⟩
  | ok u =>
    simp only at h hnew
    rw [Proc.run_bind] at h
    have hrec := recordProc_run p.io n s fs1
    generalize (s.recordProc p.io n).run fs1 = y at h hrec
    obtain ⟨⟨o', s'⟩, fs2⟩ := y
    cases o' with
    | none => cases h
    | some o' =>
      cases o' with
      | err e => exact e.elim
      | panic => cases h; exact ⟨_, .readPanic hnew (.panic hrec)⟩
      | ok items =>
        simp only at h hrec
        cases hr : c.read items with
        | none => rw [hr] at h; cases h
        | some r =>
          obtain ⟨r', h1, h2, rfl⟩ := c.read_possible _ _ hr
          have hreads := Program.ReadsEvents.done (p := p) hrec h1 h2
          rw [hr] at h
          generalize r'.result = r at h hreads
          cases r with
          | err e => cases h; exact ⟨_, .readErr hnew hreads⟩
          | panic => cases h; exact ⟨_, .readPanic hnew hreads⟩
          | ok events =>
            simp only at h
            cases hw : c.weights events with
            | none => rw [hw] at h; cases h
            | some r =>
              have hcw := c.weights_possible _ _ hw
              rw [hw] at h
              cases r with
              | err e => cases h; exact ⟨_, .weightsErr hnew hreads hcw⟩
              | panic => cases h; exact ⟨_, .weightsPanic hnew hreads hcw⟩
              | ok ws' =>
                simp only at h
                rw [Proc.run_bind, ← updateProc_run] at h
                simp only [Proc.run, Prod.mk.injEq, Option.some.injEq] at h
                obtain ⟨⟨rfl, rfl⟩, rfl⟩ := h
                rw [mapErr_unit]
                exact ⟨_, .update hnew hreads hcw⟩

/-- A possible run, as a computation. -/
theorem programProc_exists {p : Program K V D} {files : List (P × P)} {fs g : FS P} {events : Option (List (Event K V))}
    {ws : Option (List (Weights K))} {res : Outcome (CresError IOError) Unit} (h : p.Run files fs events ws res g) :
    ∃ n, ∃ c : p.Choice, (p.proc files n c).run fs = (some (ws, res), g) := by
  classical
  let c0 : p.Choice := ⟨fun _ => none, fun _ => none, by simp, by simp⟩
  -- the choice for the given items and events
  have key : ∀ {s fs1 o x}, CombinedIO.new p.io files fs = (.ok (), s, fs1) → p.ReadsEvents s fs1 o x →
      ∀ cw : List (Event K V) → Option (Outcome (CresError IOError) (List (Weights K))),
      (∀ events o, cw events = some o → p.ComputesWeights events o) →
      ∃ n, ∃ c : p.Choice, (c.weights = cw) ∧ (p.proc files n c).run fs =
        match o with
        | .err e => (some (none, .err e), x.2)
        | .panic => (some (none, .panic), x.2)
        | .ok events =>
          match cw events with
          | none => (none, x.2)
          | some (.err e) => (some (none, .err e), x.2)
          | some .panic => (some (none, .panic), x.2)
          | some (.ok ws) => (some (some ws, ((x.1.updateAll p.io ws x.2).1.mapErr CresError.io).map fun _ => ()),
              (x.1.updateAll p.io ws x.2).2.2) := by
    intro s fs1 o x hnew hreads cw hcw
    rw [newProc_run] at hnew
    cases hreads with
    | @panic n x hx =>
      refine ⟨n, ⟨fun _ => none, cw, by simp, hcw⟩, rfl, ?_⟩
      rw [Program.proc, Proc.run_bind]
      generalize (newProc p.io files).run fs = y at hnew ⊢
      obtain ⟨⟨o, s'⟩, fs'⟩ := y
      simp only [Prod.mk.injEq] at hnew
      obtain ⟨rfl, rfl, rfl⟩ := hnew
      simp only
      rw [recordProc_run] at hx
      rw [Proc.run_bind]
      generalize (s'.recordProc p.io n).run fs' = z at hx ⊢
      obtain ⟨⟨o, s2⟩, fs2⟩ := z
      simp only [Prod.mk.injEq] at hx
      obtain ⟨rfl, rfl⟩ := hx
      rfl
    | @done n items x r hx h1 h2 =>
      refine ⟨n, ⟨fun l => if l = items then some r.result else none, cw, ?_, hcw⟩, rfl, ?_⟩
      · intro l o ho
        by_cases hl : l = items
        · subst hl
          simp only [if_true, Option.some.injEq] at ho
          exact ⟨r, h1, h2, ho.symm⟩
        · simp [hl] at ho
      rw [Program.proc, Proc.run_bind]
      generalize (newProc p.io files).run fs = y at hnew ⊢
      obtain ⟨⟨o, s'⟩, fs'⟩ := y
      simp only [Prod.mk.injEq] at hnew
      obtain ⟨rfl, rfl, rfl⟩ := hnew
      simp only
      rw [recordProc_run] at hx
      rw [Proc.run_bind]
      generalize (s'.recordProc p.io n).run fs' = z at hx ⊢
      obtain ⟨⟨o, s2⟩, fs2⟩ := z
      simp only [Prod.mk.injEq] at hx
      obtain ⟨rfl, rfl⟩ := hx
      simp only [if_true]
      generalize r.result = o
      cases o with
      | err e => rfl
      | panic => rfl
      | ok events =>
        simp only
        cases cw events with
        | none => rfl
        | some w =>
          cases w with
          | err e => rfl
          | panic => rfl
          | ok ws =>
            simp only
            rw [Proc.run_bind, ← updateProc_run]
            simp only [Proc.run, mapErr_unit]
  have hone : ∀ events o, p.ComputesWeights events o → ∀ events' o',
      (fun l => if l = events then some o else none) events' = some o' → p.ComputesWeights events' o' := by
    intro events o h events' o' h'
    simp only at h'
    by_cases hl : events' = events
    · subst hl
      simp only [if_true, Option.some.injEq] at h'
      exact h' ▸ h
    · simp [hl] at h'
  have hcreate : ∀ {o s fs'}, CombinedIO.new p.io files fs = (o, s, fs') → (∀ u, o ≠ .ok u) →
      (p.proc files 0 c0).run fs =
        (some (none, match (o : Outcome IOError Unit) with | .err e => .err (.io e) | _ => .panic), fs') := by
    intro o s fs' hnew ho
    rw [newProc_run] at hnew
    rw [Program.proc, Proc.run_bind]
    generalize (newProc p.io files).run fs = y at hnew ⊢
    obtain ⟨⟨o', s'⟩, fs''⟩ := y
    simp only [Prod.mk.injEq] at hnew
    obtain ⟨rfl, rfl, rfl⟩ := hnew
    cases o' with
    | err e => rfl
    | panic => rfl
    | ok u => exact absurd rfl (ho u)
  cases h with
  | createErr h1 => exact ⟨0, c0, hcreate h1 (by simp)⟩
  | createPanic h1 => exact ⟨0, c0, hcreate h1 (by simp)⟩
  | readErr h1 h2 =>
    obtain ⟨n, c, -, h⟩ := key h1 h2 (fun _ => none) (by simp)
    exact ⟨n, c, h⟩
  | readPanic h1 h2 =>
    obtain ⟨n, c, -, h⟩ := key h1 h2 (fun _ => none) (by simp)
    exact ⟨n, c, h⟩
  | weightsErr h1 h2 h3 =>
    obtain ⟨n, c, -, h⟩ := key h1 h2 _ (hone _ _ h3)
    simp only [if_true] at h
    exact ⟨n, c, h⟩
  | weightsPanic h1 h2 h3 =>
    obtain ⟨n, c, -, h⟩ := key h1 h2 _ (hone _ _ h3)
    simp only [if_true] at h
    exact ⟨n, c, h⟩
  | update h1 h2 h3 =>
    obtain ⟨n, c, -, h⟩ := key h1 h2 _ (hone _ _ h3)
    simp only [if_true] at h
    exact ⟨n, c, h⟩

end Program

section Main

variable [Zero D] [DistNum D] [Zero K] [One K] [Add K] [Mul K] [Div K] [NatCast K] [Neg K] [LinearOrder K] [LinearOrder V]

theorem jobProc_local {I O : List Bytes → Prop} (j : Job K V D) (n : Nat) (c : j.Choice)
    (h : ∀ f, some f ∈ locatedPairs j.cwd j.outdir j.infiles → I f.1 ∧ O f.2) : (j.proc n c).Local I O fun _ => True := by
  refine (prepareProc_local _ h).bind fun x hx => ?_
  cases x with
  | err e => exact .done trivial
  | panic => exact .done trivial
  | ok y => exact (programProc_local _ (hx y.1 y.2 rfl) n (c y.2)).bind fun _ _ => .done trivial

theorem jobProc_run {j : Job K V D} {n : Nat} {c : j.Choice} {fs g : FS (List Bytes)} {ws : Option (List (Weights K))}
    {res : Outcome MainError Unit} (h : (j.proc n c).run fs = (some (ws, res), g)) :
    MainRun j.settings j.cwd j.outdir j.infiles fs ws res g := by
  rw [Job.proc, Proc.run_bind, ← prepareProc_run] at h
  simp only at h
  cases hp : prepareFiles j.settings.io fs (locatedPairs j.cwd j.outdir j.infiles) with
  | err e => rw [hp] at h; cases h; exact .scalingErr hp
  | panic => rw [hp] at h; cases h; exact .scalingPanic hp
  | ok y =>
    obtain ⟨files, io⟩ := y
    rw [hp] at h
    simp only at h
    rw [Proc.run_bind] at h
    have hrun := fun ws res g => programProc_run (p := ({ j.settings with io := io } : CresSettings K V D).program) (files := files)
      (n := n) (c := c io) (fs := fs) (ws := ws) (res := res) (g := g)
    generalize Proc.run (Program.proc _ files n (c io)) fs = z at h hrun
    obtain ⟨o, g'⟩ := z
    cases o with
    | none => cases h
    | some o =>
      simp only [Option.map, Proc.run, Prod.mk.injEq, Option.some.injEq] at h
      obtain ⟨⟨rfl, rfl⟩, rfl⟩ := h
      obtain ⟨events, hrun⟩ := hrun _ _ _ rfl
      exact .run hp hrun

theorem jobProc_exists {j : Job K V D} {fs g : FS (List Bytes)} {ws : Option (List (Weights K))} {res : Outcome MainError Unit}
    (h : MainRun j.settings j.cwd j.outdir j.infiles fs ws res g) :
    ∃ n, ∃ c : j.Choice, (j.proc n c).run fs = (some (ws, res), g) := by
  classical
  let c0 : j.Choice := fun _ => ⟨fun _ => none, fun _ => none, by simp, by simp⟩
  cases h with
  | scalingErr hp =>
    refine ⟨0, c0, ?_⟩
    rw [Job.proc, Proc.run_bind, ← prepareProc_run, hp]
    rfl
  | scalingPanic hp =>
    refine ⟨0, c0, ?_⟩
    rw [Job.proc, Proc.run_bind, ← prepareProc_run, hp]
    rfl
  | @run files io events ws res fs' hp hrun =>
    obtain ⟨n, c, hc⟩ := programProc_exists hrun
    refine ⟨n, fun io' => if h : io' = io then h ▸ c else c0 io', ?_⟩
    unfold Job.proc
    rw [Proc.run_bind, ← prepareProc_run, hp]
    simp only [dif_pos]
    rw [Proc.run_bind, hc]
    rfl

end Main

end Cres
