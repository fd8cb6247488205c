import Verif.Proofs.SelectNames
import Verif.Props.Apart

/-!
# C101: the selection of named weights
-/

set_option linter.unusedSectionVars false

namespace Cres

open Spec CombinedIO Program Cres.Path

section

variable {K V D : Type*} [Zero D] [LinearOrder D] [DistNum D] [ExactComparison D] [Zero K] [One K] [Add K] [Mul K] [Div K]
  [Neg K] [NatCast K] [LinearOrder K] [LinearOrder V] {s : CresSettings K V D}

theorem cres_sameComponents (hm : s.io.ctx.multi = true) (hd : IgnoresWeights s.distance) (I : List Nat) (N' : List Bytes) :
    SameComponents (0 :: I) s.program (CresSettings.selecting s N').program := by
  refine ⟨hm, rfl, rfl, fun evs => ?_, fun evs => ?_, fun evs => unweightStep_keeping _ _ _ _⟩
  · have : distWrapper s.distance (evs.map (keepingWeights (0 :: I))) = distWrapper s.distance evs := by
      funext i j
      unfold distWrapper
      rw [List.getElem?_map, List.getElem?_map]
      cases evs[i]? with
      | none => rfl
      | some e => cases evs[j]? with
        | none => rfl
        | some e' => exact hd e e' _ _
    show s.search.nearest s.distance s.maxCellSize _ = s.search.nearest s.distance s.maxCellSize _
    unfold SearchAlgo.nearest
    rw [this, List.length_map]
  · show (selectSeeds s.sortSeeds s.strategy _ _).getD [] = (selectSeeds s.sortSeeds s.strategy _ _).getD []
    rw [List.length_map, memOf_keeping, selectSeeds_keeping]

/-- The files have named weights if names are selected. -/
theorem Spec.Sample.Good.named {x : Sample K V} (hx : x.Good s) (hm : s.io.ctx.multi = true) (hne : s.io.ctx.names ≠ []) :
    NamedFiles (x.io s) x.files ∧ (s.io.ctx.debug = true → ∀ w, s.io.ctx.float.isNaN w = false) :=
  hx.weights.resolve_left fun h => hne (h hm)

/-- Reading the output with one of the selected names. -/
theorem Spec.Sample.Good.reread (hc : GoodChoices s) {x : Sample K V} (hx : x.Good s) (hnf : NamedFiles (x.io s) x.files)
    (hnan : s.io.ctx.debug = true → ∀ w, s.io.ctx.float.isNaN w = false)
    {order : List Bytes} (hord : order.Perm s.io.ctx.names)
    (horder : ∀ d ∈ x.files, ∀ r ∈ d.records, ∃ names, RecordNames r names ∧
      names.filter (fun n => decide (n ∈ s.io.ctx.names)) = order)
    {ws : List (Weights K)} {res : Outcome MainError Unit} {fs' : FS (List Bytes)} (h : x.Run s ws res fs') (hw : x.CanWrite s ws) :
    res = .ok () ∧ (∀ w ∈ ws, AllOrNone (s.io.ctx.names.length + 1) w) ∧
    ∀ n ∈ s.io.ctx.names, ∀ dn, EventFiles (selecting (x.io s) [n]) x.fs
        ((eventInputs x.ins x.tags).map fun y => locate x.cwd y.1 ++ [y.2]) dn →
      ∃ dn', EventFiles (selecting (x.io s) [n]) fs' ((eventInputs x.ins x.tags).map fun y => locate x.cwd x.outdir ++ [y.2]) dn' ∧
        allEvents dn' = List.zipWith (reweightedFor s.io.ctx.names order n) ws (allEvents dn) := by
  obtain ⟨h1, h2, h3⟩ := hx.inputs.files
  have hin := hx.files
  rw [← h3] at hin
  unfold Sample.Run at h
  generalize hws : some ws = ows at h
  cases h with
  | scalingErr _ => simp at hws
  | scalingPanic _ => simp at hws
  | run g1 g2 =>
    subst hws
    rw [h1] at g1
    simp only [Outcome.ok.injEq, Prod.mk.injEq] at g1
    obtain ⟨rfl, rfl⟩ := g1
    have hc1 : GoodChoices { s with io := x.io s } := ⟨hc.search, hc.seeds, hc.rng⟩
    have hg := cres_goodComponents hc1
    obtain ⟨-, hl, q1⟩ := run_files (p := CresSettings.program { s with io := x.io s }) hnf.weights hin h2 g2
    obtain ⟨events, -, he, hcw⟩ := run_events_all (p := CresSettings.program { s with io := x.io s }) hnf.weights hin h2 g2
    have hm1 : (CresSettings.program { s with io := x.io s }).io.ctx.multi = true := hnf.multi
    have hany := (weights_any hg (unweight_survivors _ _ _) (Nat.succ_pos _) (by rw [hm1]; simp) he hcw).2
    have hwl : ∀ w ∈ ws, w = [] ∨ w.length = s.io.ctx.names.length + 1 := by
      intro w hwm
      rcases (hany w hwm).1 with h | h
      · exact .inr h
      · left
        rw [h, defaultWeights, if_pos]
        exact hm1
    have hpos := List.length_pos_iff.2 hnf.nonempty
    have hfin : ∀ w ∈ ws, ∀ c ∈ w, (x.io s).ctx.float.finite c = true := by
      intro w hwm c hcm
      have hlen : 0 < ws.length := List.length_pos_of_mem hwm
      rw [hl] at hlen
      obtain ⟨ev, hev⟩ := List.exists_mem_of_length_pos hlen
      obtain ⟨d, hd, -⟩ := List.mem_flatMap.1 hev
      exact (hw w hwm c hcm d hd).1
    have h01 : (∀ ev ∈ allEvents x.files, weightNo 0 ev = weightNo 1 ev) → ∀ w ∈ ws, w.getD 0 0 = w.getD 1 0 :=
      fun h w hwm => (hany w hwm).2 0 (Nat.succ_pos _) 1 (Nat.succ_lt_succ hpos) h
    obtain ⟨r1, r2, -⟩ := q1 fun w hwm => canWrite_named hin hnf hnan (hwl w hwm) (hfin w hwm) fun h => h01 h w hwm
    refine ⟨by rw [r1]; rfl, hwl, fun n hn dn hdn => ?_⟩
    rw [← h3] at hdn
    obtain ⟨dn', k1, -, k2, -⟩ := named_reread hin hnf hnan hwl hfin h01 hl r2 hdn hord horder (.inl hn)
    rw [List.map_map] at k1
    exact ⟨dn', k1, k2⟩

theorem reweightedFor_keeping {N N' order : List Bytes} (hord : order.Perm N) {n : Bytes} (hn : n ∈ N') (hsub : ∀ n ∈ N', n ∈ N)
    {w : List K} (hw : AllOrNone (N.length + 1) w) (e : Event K V) :
    reweightedFor N' (order.filter fun n => decide (n ∈ N')) n (onlyWeights (0 :: HepMC.positions N' 1 order) w) e =
      reweightedFor N order n w e := by
  unfold reweightedFor
  simp only [onlyWeights_eq_nil, if_pos hn, if_pos (hsub n hn)]
  rcases hw with rfl | hw
  · rfl
  · cases w with
    | nil => simp at hw
    | cons w0 t =>
      rw [List.length_cons, Nat.add_right_cancel_iff] at hw
      have h2 := onlyWeights_positions N' order [w0] t (by rw [hord.length_eq, hw])
      have h3 : onlyWeights (0 :: HepMC.positions N' 1 order) (w0 :: t) = w0 :: HepMC.selected N' order t := by
        rw [← h2]
        simp [onlyWeights]
      rw [if_neg (by simp), if_neg (by simp), h3, List.getD_cons_succ, selected_getD hn,
        if_pos (hord.mem_iff.2 (hsub n hn))]
      rfl

variable {N' : List Bytes}

/-- **C101**: input files that can be read with the selected names can also be read with fewer names. -/
theorem C101_readable {x : Sample K V} (hx : x.Good s) (hm : s.io.ctx.multi = true) (hne : N' ≠ []) (hnd : N'.Nodup)
    (hsub : ∀ n ∈ N', n ∈ s.io.ctx.names) :
    ∃ files, { x with files := files }.Good (CresSettings.selecting s N') := by
  have hne0 : s.io.ctx.names ≠ [] := by
    obtain ⟨n, hn⟩ := List.exists_mem_of_ne_nil _ hne
    exact List.ne_nil_of_mem (hsub n hn)
  obtain ⟨hnf, hnan⟩ := hx.named hm hne0
  obtain ⟨order, ho1, ho2⟩ := hnf.names
  obtain ⟨ds', k1, -, -, k4⟩ := named_files_fewer hx.files hnf hnan ho1 ho2 hne hnd hsub
  exact ⟨ds', ⟨hx.inputs.paths, hx.inputs.dirs, hx.inputs.names, hx.inputs.content, hx.inputs.xml⟩, k1, .inr ⟨k4, hnan⟩⟩

/-- The events read with fewer names. -/
theorem fewer_events {x : Sample K V} (hx : x.Good s) (hm : s.io.ctx.multi = true) (hne : N' ≠ []) (hnd : N'.Nodup)
    (hsub : ∀ n ∈ N', n ∈ s.io.ctx.names) {files : List (EventFile K V)}
    (hx' : { x with files := files }.Good (CresSettings.selecting s N')) :
    NamedFiles (x.io s) x.files ∧ (s.io.ctx.debug = true → ∀ w, s.io.ctx.float.isNaN w = false) ∧
    NamedFiles (selecting (x.io s) N') files ∧
    ∃ order, order.Perm s.io.ctx.names ∧ (∀ d ∈ x.files, ∀ r ∈ d.records, ∃ names, RecordNames r names ∧
      names.filter (fun n => decide (n ∈ s.io.ctx.names)) = order) ∧
      List.Forall₂ (fun d d' : EventFile K V => d'.toFileData = d.toFileData) x.files files ∧
      allEvents files = x.events.map (keepingWeights (0 :: HepMC.positions N' 1 order)) := by
  have hne0 : s.io.ctx.names ≠ [] := by
    obtain ⟨n, hn⟩ := List.exists_mem_of_ne_nil _ hne
    exact List.ne_nil_of_mem (hsub n hn)
  obtain ⟨hnf, hnan⟩ := hx.named hm hne0
  obtain ⟨order, ho1, ho2⟩ := hnf.names
  obtain ⟨ds', k1, k2, k3, k4⟩ := named_files_fewer hx.files hnf hnan ho1 ho2 hne hnd hsub
  have : files = ds' := eventFiles_unique hx'.files k1
  subst this
  exact ⟨hnf, hnan, k4, order, ho1, ho2, k3, k2⟩

/-- The output of runs with more and with fewer names. -/
theorem fewer_output (hc : GoodChoices s) {x : Sample K V} (hx : x.Good s) (hm : s.io.ctx.multi = true) (hne : N' ≠ []) (hnd : N'.Nodup)
    (hsub : ∀ n ∈ N', n ∈ s.io.ctx.names) {files : List (EventFile K V)}
    (hx' : { x with files := files }.Good (CresSettings.selecting s N')) {order : List Bytes} (ho1 : order.Perm s.io.ctx.names)
    (ho2 : ∀ d ∈ x.files, ∀ r ∈ d.records, ∃ names, RecordNames r names ∧
      names.filter (fun n => decide (n ∈ s.io.ctx.names)) = order)
    {ws : List (Weights K)} {res res' : Outcome MainError Unit} {fs' fs'' : FS (List Bytes)}
    (h : x.Run s ws res fs') (h' : { x with files := files }.Run (CresSettings.selecting s N')
      (ws.map (onlyWeights (0 :: HepMC.positions N' 1 order))) res' fs'') (hw : x.CanWrite s ws) :
    res = .ok () ∧ res' = .ok () ∧
      SameForNames (x.io s) N' ((eventInputs x.ins x.tags).map fun y => locate x.cwd x.outdir ++ [y.2]) fs' fs'' := by
  obtain ⟨hnf, hnan, hnf', order', -, -, hsame, -⟩ := fewer_events hx hm hne hnd hsub hx'
  obtain ⟨r1, hall, k1⟩ := hx.reread hc hnf hnan ho1 ho2 h hw
  have hc' : GoodChoices (CresSettings.selecting s N') := ⟨hc.search, hc.seeds, hc.rng⟩
  have hrec : ∀ d ∈ files, ∃ d0 ∈ x.files, d.toFileData = d0.toFileData := by
    intro d hd
    obtain ⟨i, hi⟩ := List.getElem?_of_mem hd
    have hlt : i < x.files.length := by
      rw [hsame.length_eq]
      exact (List.getElem?_eq_some_iff.1 hi).1
    exact ⟨_, List.getElem_mem hlt, forall₂_get hsame (List.getElem?_eq_getElem hlt) hi⟩
  obtain ⟨r2, -, k2⟩ := hx'.reread hc' hnf' hnan (order := order.filter fun n => decide (n ∈ N'))
    (by
      refine (List.perm_ext_iff_of_nodup ((ho1.nodup_iff.2 hnf.nodup).filter _) hnd).2 fun n => ?_
      simp only [List.mem_filter, decide_eq_true_eq, and_iff_right_iff_imp]
      exact fun h => ho1.mem_iff.2 (hsub n h))
    (by
      intro d hd r hr
      obtain ⟨d0, h1, h2⟩ := hrec d hd
      rw [h2] at hr
      obtain ⟨names, g1, g2⟩ := ho2 d0 h1 r hr
      refine ⟨names, g1, ?_⟩
      rw [← g2, List.filter_filter]
      refine List.filter_congr fun n _ => ?_
      show decide (n ∈ N') = _
      by_cases hn : n ∈ N' <;> simp [hn, hsub]) h'
    (by
      intro w hwm c hcm d hd
      obtain ⟨w0, g1, rfl⟩ := List.mem_map.1 hwm
      obtain ⟨i, -, g2⟩ := List.mem_filterMap.1 hcm
      obtain ⟨d0, h1, h2⟩ := hrec d hd
      have := hw w0 g1 c (List.mem_of_getElem? g2) d0 h1
      rw [h2]
      exact this)
  refine ⟨r1, r2, fun n hn => ?_⟩
  obtain ⟨order2, o1, o2⟩ := C78_selected_read hx.files hnf hnan
  have hn2 : n ∈ order2 := o1.mem_iff.2 (hsub n hn)
  obtain ⟨k, hk⟩ := List.getElem?_of_mem hn2
  obtain ⟨dn, hdn, -⟩ := o2 k n hk
  obtain ⟨out, l1, l2⟩ := k1 n (hsub n hn) dn hdn
  obtain ⟨out', l3, l4⟩ := k2 n hn dn hdn
  refine ⟨out, out', l1, l3, ?_⟩
  rw [l2, l4, List.zipWith_map_left]
  refine zipWith_congr_left fun w hwm => funext fun e => ?_
  exact reweightedFor_keeping ho1 hn hsub (hall w hwm) e

/-- A run with all weights is also a run with some of them. -/
theorem keeping_fewer (hc : GoodChoices s) (hd : IgnoresWeights s.distance) {x : Sample K V} (hx : x.Good s)
    (hm : s.io.ctx.multi = true) {L L' : Nat} (hL : ∀ ev ∈ x.events, ev.weights.length = L) {I : List Nat}
    {files : List (EventFile K V)} (hx' : { x with files := files }.Good (CresSettings.selecting s N'))
    (hL' : ∀ ev ∈ allEvents files, ev.weights.length = L') (hev : allEvents files = x.events.map (keepingWeights (0 :: I)))
    {ws : List (Weights K)} {res : Outcome MainError Unit} {fs' : FS (List Bytes)} (h : x.Run s ws res fs') :
    ∃ res' fs'', { x with files := files }.Run (CresSettings.selecting s N') (ws.map (onlyWeights (0 :: I))) res' fs'' := by
  obtain ⟨events, he, hcw⟩ := hx.run hL h
  have hl := he.weights (cres_goodComponents hc)
  have hcw' := computes_keeping (cres_sameComponents hm hd I N') hl hcw
  have he' : EventsRead (CresSettings.selecting s N').program L' files (events.map (keepingWeights (0 :: I))) := by
    refine ⟨?_, ?_⟩
    · rw [List.map_map, hev, List.length_map]
      exact he.ids
    · intro ev hevm
      obtain ⟨e, h1, rfl⟩ := List.mem_map.1 hevm
      obtain ⟨e0, e1, g1, g2, g3, -⟩ := he.from_file e h1
      have g1' : (allEvents files)[e.id]? = some (keepingWeights (0 :: I) e0) := by
        rw [hev, List.getElem?_map]
        exact congrArg _ g1
      refine ⟨_, keepingWeights (0 :: I) e1, g1', ?_, ?_, hL' _ (List.mem_of_getElem? g1')⟩
      · simp only [CresSettings.program, Outcome.ok.injEq] at g2 ⊢
        rw [← g2]
        rfl
      · conv_lhs => rw [g3]
        rfl
  exact hx'.runs he' hcw'

/-- A run with some of the weights comes from a run with all weights. -/
theorem keeping_more (hc : GoodChoices s) (hd : IgnoresWeights s.distance) {x : Sample K V} (hx : x.Good s)
    (hm : s.io.ctx.multi = true) {L L' : Nat} (hL : ∀ ev ∈ x.events, ev.weights.length = L) {I : List Nat}
    {files : List (EventFile K V)} (hx' : { x with files := files }.Good (CresSettings.selecting s N'))
    (hL' : ∀ ev ∈ allEvents files, ev.weights.length = L') (hev : allEvents files = x.events.map (keepingWeights (0 :: I)))
    {ws' : List (Weights K)} {res' : Outcome MainError Unit} {fs'' : FS (List Bytes)}
    (h' : { x with files := files }.Run (CresSettings.selecting s N') ws' res' fs'') :
    ∃ ws res fs', x.Run s ws res fs' ∧ ws' = ws.map (onlyWeights (0 :: I)) := by
  obtain ⟨events', he', hcw'⟩ := hx'.run hL' h'
  let f : Event K V → Event K V := fun e' =>
    match x.events[e'.id]? with
    | some e0 => { Cluster.cluster s.io.ctx.multi s.particles s.clustering e0 with id := e'.id }
    | none => e'
  have hid : ∀ e', (f e').id = e'.id := by
    intro e'
    simp only [f]
    cases x.events[e'.id]? <;> rfl
  have hkeep : ∀ e' ∈ events', keepingWeights (0 :: I) (f e') = e' := by
    intro e' hm'
    obtain ⟨e0, e1, g1, g2, g3, -⟩ := he'.from_file e' hm'
    change (allEvents files)[e'.id]? = some e0 at g1
    rw [hev, List.getElem?_map] at g1
    obtain ⟨e00, k1, rfl⟩ := Option.map_eq_some_iff.1 g1
    simp only [f, k1]
    simp only [CresSettings.program, Outcome.ok.injEq] at g2
    conv_rhs => rw [g3, ← g2]
    rfl
  have hmap : (events'.map f).map (keepingWeights (0 :: I)) = events' := by
    rw [List.map_map]
    conv_rhs => rw [← List.map_id events']
    exact List.map_congr_left fun e he => hkeep e he
  have he : EventsRead s.program L x.files (events'.map f) := by
    refine ⟨?_, ?_⟩
    · have := he'.ids
      change (events'.map Event.id).Perm (List.range (allEvents files).length) at this
      rw [hev, List.length_map] at this
      rw [List.map_map, show Event.id ∘ f = Event.id from funext hid]
      exact this
    · intro ev hevm
      obtain ⟨e', h1, rfl⟩ := List.mem_map.1 hevm
      obtain ⟨e0, e1, g1, g2, g3, -⟩ := he'.from_file e' h1
      change (allEvents files)[e'.id]? = some e0 at g1
      rw [hev, List.getElem?_map] at g1
      obtain ⟨e00, k1, rfl⟩ := Option.map_eq_some_iff.1 g1
      refine ⟨e00, _, by rw [hid]; exact k1, rfl, ?_, hL _ (List.mem_of_getElem? k1)⟩
      simp only [f, k1]
  have hl := he.weights (cres_goodComponents hc)
  rw [← hmap] at hcw'
  obtain ⟨o, hcw, ho⟩ := computes_of_keeping (cres_sameComponents hm hd I N') hl hcw'
  cases o with
  | err e => simp [Outcome.map] at ho
  | panic => simp [Outcome.map] at ho
  | ok ws =>
    simp only [Outcome.map, Outcome.ok.injEq] at ho
    obtain ⟨res, fs', h⟩ := hx.runs he hcw
    exact ⟨ws, res, fs', h, ho⟩

/-- **C101**: a run with more and a run with fewer selected names. For each run with all selected names there is a run with some of
these names such that central weights in the output and weights with one of these names are the same. -/
theorem C101_fewer (hc : GoodChoices s) (hd : IgnoresWeights s.distance) {x : Sample K V} (hx : x.Good s)
    (hm : s.io.ctx.multi = true) (hne : N' ≠ []) (hnd : N'.Nodup) (hsub : ∀ n ∈ N', n ∈ s.io.ctx.names)
    {files : List (EventFile K V)} (hx' : { x with files := files }.Good (CresSettings.selecting s N'))
    {ws : List (Weights K)} {res : Outcome MainError Unit} {fs' : FS (List Bytes)} (h : x.Run s ws res fs') :
    ∃ ws' res' fs'', { x with files := files }.Run (CresSettings.selecting s N') ws' res' fs'' ∧
      (x.CanWrite s ws → res = .ok () ∧ res' = .ok () ∧
        SameForNames (x.io s) N' ((eventInputs x.ins x.tags).map fun y => locate x.cwd x.outdir ++ [y.2]) fs' fs'') := by
  obtain ⟨hnf, hnan, hnf', order, ho1, ho2, -, hev⟩ := fewer_events hx hm hne hnd hsub hx'
  obtain ⟨res', fs'', h'⟩ := keeping_fewer hc hd hx hm hnf.weights hx' hnf'.weights hev h
  exact ⟨_, res', fs'', h', fewer_output hc hx hm hne hnd hsub hx' ho1 ho2 h h'⟩

/-- **C101**, the other way round: for each run with some of the names there is a run with all selected names such that central weights
in the output and weights with one of these names are the same. -/
theorem C101_more (hc : GoodChoices s) (hd : IgnoresWeights s.distance) {x : Sample K V} (hx : x.Good s)
    (hm : s.io.ctx.multi = true) (hne : N' ≠ []) (hnd : N'.Nodup) (hsub : ∀ n ∈ N', n ∈ s.io.ctx.names)
    {files : List (EventFile K V)} (hx' : { x with files := files }.Good (CresSettings.selecting s N'))
    {ws' : List (Weights K)} {res' : Outcome MainError Unit} {fs'' : FS (List Bytes)}
    (h' : { x with files := files }.Run (CresSettings.selecting s N') ws' res' fs'') :
    ∃ ws res fs', x.Run s ws res fs' ∧
      (x.CanWrite s ws → res = .ok () ∧ res' = .ok () ∧
        SameForNames (x.io s) N' ((eventInputs x.ins x.tags).map fun y => locate x.cwd x.outdir ++ [y.2]) fs' fs'') := by
  obtain ⟨hnf, hnan, hnf', order, ho1, ho2, -, hev⟩ := fewer_events hx hm hne hnd hsub hx'
  obtain ⟨ws, res, fs', h, rfl⟩ := keeping_more hc hd hx hm hnf.weights hx' hnf'.weights hev h'
  exact ⟨ws, res, fs', h, fewer_output hc hx hm hne hnd hsub hx' ho1 ho2 h h'⟩

/-- The output of runs with and without names. -/
theorem central_output (hc : GoodChoices s) {x : Sample K V} (hx : x.Good s) {files : List (EventFile K V)}
    (hx' : { x with files := files }.Good (CresSettings.selecting s [])) (hev : allEvents files = x.events.map (keepingWeights [0]))
    {ws : List (Weights K)} {res res' : Outcome MainError Unit} {fs' fs'' : FS (List Bytes)}
    (h : x.Run s ws res fs') (h' : { x with files := files }.Run (CresSettings.selecting s []) (ws.map (onlyWeights [0])) res' fs'')
    (hw : x.CanWrite s ws) :
    res = .ok () ∧ res' = .ok () ∧ ∃ out out', x.Wrote s fs' out ∧ { x with files := files }.Wrote (CresSettings.selecting s []) fs'' out' ∧
      allEvents out' = (allEvents out).map (keepingWeights [0]) := by
  have hc' : GoodChoices (CresSettings.selecting s []) := ⟨hc.search, hc.seeds, hc.rng⟩
  have hsame := selecting_same (sel := []) hx.files hx'.files
  have hrec : ∀ d ∈ files, ∃ d0 ∈ x.files, d.toFileData = d0.toFileData := by
    intro d hd
    obtain ⟨i, hi⟩ := List.getElem?_of_mem hd
    have hlt : i < x.files.length := by
      rw [hsame.length_eq]
      exact (List.getElem?_eq_some_iff.1 hi).1
    exact ⟨_, List.getElem_mem hlt, forall₂_get hsame (List.getElem?_eq_getElem hlt) hi⟩
  obtain ⟨r1, out, k1, k2⟩ := hx.wrote hc h hw
  obtain ⟨r2, out', l1, l2⟩ := hx'.wrote hc' h' (by
    intro w hwm c hcm d hd
    obtain ⟨w0, g1, rfl⟩ := List.mem_map.1 hwm
    obtain ⟨i, -, g2⟩ := List.mem_filterMap.1 hcm
    obtain ⟨d0, h1, h2⟩ := hrec d hd
    have := hw w0 g1 c (List.mem_of_getElem? g2) d0 h1
    rw [h2]
    exact this)
  refine ⟨r1, r2, out, out', k1, l1, ?_⟩
  rw [k2, l2, show ({ x with files := files } : Sample K V).events = allEvents files from rfl, hev, List.map_zipWith, List.zipWith_map]
  congr 1
  funext w e
  exact reweighted_keeping w e

/-- **C101**: names do not influence central weights. If reading without names gives the same central weights, then for each run with
names there is a run without names, and the other way round, such that all central weights in the output are the same. -/
theorem C101_central (hc : GoodChoices s) (hd : IgnoresWeights s.distance) {x : Sample K V} (hx : x.Good s)
    (hm : s.io.ctx.multi = true) (hne : s.io.ctx.names ≠ [])
    {files : List (EventFile K V)} (hx' : { x with files := files }.Good (CresSettings.selecting s []))
    (hev : allEvents files = x.events.map (keepingWeights [0])) :
    (∀ ws res fs', x.Run s ws res fs' → ∃ ws' res' fs'', { x with files := files }.Run (CresSettings.selecting s []) ws' res' fs'' ∧
      (x.CanWrite s ws → res = .ok () ∧ res' = .ok () ∧
        ∃ out out', x.Wrote s fs' out ∧ { x with files := files }.Wrote (CresSettings.selecting s []) fs'' out' ∧
          allEvents out' = (allEvents out).map (keepingWeights [0]))) ∧
    (∀ ws' res' fs'', { x with files := files }.Run (CresSettings.selecting s []) ws' res' fs'' → ∃ ws res fs', x.Run s ws res fs' ∧
      (x.CanWrite s ws → res = .ok () ∧ res' = .ok () ∧
        ∃ out out', x.Wrote s fs' out ∧ { x with files := files }.Wrote (CresSettings.selecting s []) fs'' out' ∧
          allEvents out' = (allEvents out).map (keepingWeights [0]))) := by
  obtain ⟨hnf, -⟩ := hx.named hm hne
  have hL' : ∀ ev ∈ allEvents files, ev.weights.length = 1 := by
    intro ev hevm
    rw [hev] at hevm
    obtain ⟨e, h1, rfl⟩ := List.mem_map.1 hevm
    have := hnf.weights e h1
    show (onlyWeights [0] e.weights).length = 1
    unfold onlyWeights
    cases hw : e.weights with
    | nil => rw [hw] at this; simp at this
    | cons => simp
  refine ⟨fun ws res fs' h => ?_, fun ws' res' fs'' h' => ?_⟩
  · obtain ⟨res', fs'', h'⟩ := keeping_fewer hc hd hx hm hnf.weights hx' hL' hev h
    exact ⟨_, res', fs'', h', central_output hc hx hx' hev h h'⟩
  · obtain ⟨ws, res, fs', h, rfl⟩ := keeping_more hc hd hx hm hnf.weights hx' hL' hev h'
    exact ⟨ws, res, fs', h, central_output hc hx hx' hev h h'⟩

end

/-! ### examples -/

/-- Two events with the weights `a`, `b`, `x` and `c`, of which `b` and `c` are selected. -/
def exSelectX : Sample ℚ ℚ :=
  ⟨[], ascii "/out", [(ascii "/data/", ascii "a")], [none],
    fun p => if p = [ascii "data", ascii "a"] then some ((exNamedFile false).header ++ (exNamedFile false).records.flatten) else none,
    [exNamedFile false]⟩

theorem exSelect_good : exSelectX.Good exNamedSettings := by
  refine ⟨⟨?_, ?_, by decide +kernel, .cons ⟨_, rfl, ?_⟩ .nil, Or.inl rfl⟩,
    .cons ⟨_, by decide +kernel, exNamedFile_ok false⟩ .nil, .inr ⟨⟨exNamed_files.multi, exNamed_files.nonempty,
      exNamed_files.nodup, exNamed_files.hepmc, exNamed_files.weights, exNamed_files.names, exNamed_files.first⟩,
      fun h => by simp [Sample.io, exNamedSettings, ratCtx] at h⟩⟩
  · unfold IsFilePath IsName
    decide +kernel
  · decide +kernel
  · show ¬ _
    decide +kernel

theorem exSelect_run : ∃ res fs', exSelectX.Run exNamedSettings [[2, 11, 7], [2, 11, 7]] res fs' := by
  refine exSelect_good.runs (m := 3) (events := exNamedEvents) ⟨by decide +kernel, fun e he => ?_⟩ exNamed_weights
  simp only [exNamedEvents, List.mem_cons, List.not_mem_nil, or_false] at he
  rcases he with rfl | rfl
  · exact ⟨⟨0, [6, 21, 4], [(21, [9])]⟩, ⟨0, [6, 21, 4], [(81, [9])]⟩, by decide +kernel, by decide +kernel, rfl, rfl⟩
  · exact ⟨⟨0, [-2, 1, 10], [(21, [7])]⟩, ⟨0, [-2, 1, 10], [(81, [7])]⟩, by decide +kernel, by decide +kernel, rfl, rfl⟩

theorem exSelect_write : exSelectX.CanWrite exNamedSettings [[2, 11, 7], [2, 11, 7]] := by
  intro w hw c hc d hd
  simp only [exSelectX, List.mem_singleton] at hd
  subst hd
  exact ⟨exNamed_finite w hw c hc, trivial⟩

/-- The hypotheses of `C101_readable`, `C101_fewer` and `C101_more` are met: with only `c` selected, the weights with this name are the
same, whatever else is selected. -/
example : ∃ files, { exSelectX with files := files }.Good (CresSettings.selecting exNamedSettings [ascii "c"]) ∧
    (∃ fs' fs'', exSelectX.Run exNamedSettings [[2, 11, 7], [2, 11, 7]] (.ok ()) fs' ∧
      (∃ ws', { exSelectX with files := files }.Run (CresSettings.selecting exNamedSettings [ascii "c"]) ws' (.ok ()) fs'') ∧
      SameForNames (exSelectX.io exNamedSettings) [ascii "c"] [[ascii "out", ascii "a"]] fs' fs'') ∧
    ∀ ws' res' fs'', { exSelectX with files := files }.Run (CresSettings.selecting exNamedSettings [ascii "c"]) ws' res' fs'' →
      ∃ ws res fs', exSelectX.Run exNamedSettings ws res fs' ∧
        (exSelectX.CanWrite exNamedSettings ws → res = .ok () ∧ res' = .ok () ∧
          SameForNames (exSelectX.io exNamedSettings) [ascii "c"] [[ascii "out", ascii "a"]] fs' fs'') := by
  have hsub : ∀ n ∈ [ascii "c"], n ∈ exNamedSettings.io.ctx.names := by decide +kernel
  obtain ⟨files, hf⟩ := C101_readable exSelect_good rfl (N' := [ascii "c"]) (by simp) (by simp) hsub
  have hp : ((eventInputs exSelectX.ins exSelectX.tags).map fun y => locate exSelectX.cwd exSelectX.outdir ++ [y.2]) =
      [[ascii "out", ascii "a"]] := by decide +kernel
  refine ⟨files, hf, ?_, fun ws' res' fs'' h' => ?_⟩
  · obtain ⟨res, fs', h⟩ := exSelect_run
    obtain ⟨ws', res', fs'', h1, h2⟩ := C101_fewer exNamedSettings_good (fun _ _ _ _ => rfl) exSelect_good rfl (by simp) (by simp) hsub hf h
    obtain ⟨rfl, rfl, h3⟩ := h2 exSelect_write
    rw [hp] at h3
    exact ⟨fs', fs'', h, ⟨ws', h1⟩, h3⟩
  · have := C101_more exNamedSettings_good (fun _ _ _ _ => rfl) exSelect_good rfl (by simp) (by simp) hsub hf h'
    rw [hp] at this
    exact this

/-- The same file without names. -/
def exSelectNone : EventFile ℚ ℚ :=
  ⟨(exNamedFile false).toFileData, [⟨0, [-2], [(21, [7])]⟩, ⟨0, [6], [(21, [9])]⟩]⟩

theorem exSelectNone_good : { exSelectX with files := [exSelectNone] }.Good (CresSettings.selecting exNamedSettings []) := by
  refine ⟨⟨exSelect_good.inputs.paths, exSelect_good.inputs.dirs, exSelect_good.inputs.names, exSelect_good.inputs.content,
    exSelect_good.inputs.xml⟩, .cons ⟨_, by decide +kernel, (exNamedFile_ok false).1, ?_⟩ .nil, .inl fun _ => rfl⟩
  refine .cons ?_ (.cons ?_ .nil)
  · show HepMC.parse _ _ = _
    decide +kernel
  · show HepMC.parse _ _ = _
    decide +kernel

/-- The hypotheses of `C101_central` are met. -/
example : ∃ fs' fs'' out out', exSelectX.Run exNamedSettings [[2, 11, 7], [2, 11, 7]] (.ok ()) fs' ∧
    (∃ ws', { exSelectX with files := [exSelectNone] }.Run (CresSettings.selecting exNamedSettings []) ws' (.ok ()) fs'') ∧
    exSelectX.Wrote exNamedSettings fs' out ∧
    { exSelectX with files := [exSelectNone] }.Wrote (CresSettings.selecting exNamedSettings []) fs'' out' ∧
    allEvents out' = (allEvents out).map (keepingWeights [0]) := by
  obtain ⟨res, fs', h⟩ := exSelect_run
  obtain ⟨ws', res', fs'', h1, h2⟩ := (C101_central exNamedSettings_good (fun _ _ _ _ => rfl) exSelect_good rfl
    (by decide +kernel) exSelectNone_good (by decide +kernel)).1 _ _ _ h
  obtain ⟨rfl, rfl, out, out', k⟩ := h2 exSelect_write
  exact ⟨fs', fs'', out, out', h, ⟨ws', h1⟩, k⟩

end Cres
