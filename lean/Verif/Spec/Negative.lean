import Verif.Spec.Program
import Verif.Model.Concurrent
import Verif.Model.Main

/-!
Vocabulary for the statements about negative weights in files.
-/

namespace Cres.Spec

variable {K V D : Type*}

/-- The contribution of negative weights. -/
def negativeSum [Field K] [LinearOrder K] (k : Nat) (events : List (Event K V)) : K := (events.map fun e => max (-weightNo k e) 0).sum

/-- The sum of the absolute values of weights. -/
def absSum [Field K] [LinearOrder K] (k : Nat) (events : List (Event K V)) : K := (events.map fun e => |weightNo k e|).sum

/-- The sum of the squares of weights. -/
def squareSum [Field K] (k : Nat) (events : List (Event K V)) : K := (events.map fun e => weightNo k e ^ 2).sum

/-- The weights `ws` are those computed for `events` if there is one thread: the cells are constructed and resampled one
after the other. -/
def OneThreadWeights [Zero D] [Zero K] [One K] [Add K] [Mul K] [Div K] [NatCast K] [LinearOrder K]
    (p : Program K V D) (events : List (Event K V)) (ws : List (Weights K)) : Prop :=
  ∃ (evs : List (Event K V)) (ks : List Nat) (s : State D K), evs = events.filter (fun e => !e.outgoingByPid.isEmpty) ∧
    ks.length = (p.seeds evs).length ∧
    runSchedule p.cfg evs.length (p.nearest evs) (p.seeds evs) (serialSchedule 0 ks) (State.init (memOf evs)) = some s ∧
    s.Finished (p.seeds evs) ∧
    runWeights p.cfg p.infoLog (fun _ => (.ok (withWeights evs s.mem) : Outcome IOError _)) p.unweight events = .ok ws

/-- A run of the command line program with one thread, in which `events` are read and `ws` are the new weights. -/
def OneThreadRun [Zero D] [DistNum D] [Zero K] [One K] [Add K] [Mul K] [Div K] [Neg K] [NatCast K] [LinearOrder K] [LinearOrder V]
    (s : CresSettings K V D)
    (cwd : List Bytes) (outdir : Bytes) (infiles : List Bytes) (fs : FS (List Bytes)) (events : List (Event K V))
    (ws : List (Weights K)) (res : Outcome MainError Unit) (fs' : FS (List Bytes)) : Prop :=
  ∃ files io r, prepareFiles s.io fs (locatedPairs cwd outdir infiles) = .ok (files, io) ∧
    { s with io := io }.program.Run files fs (some events) (some ws) r fs' ∧
    OneThreadWeights { s with io := io }.program events ws ∧ res = r.mapErr .cres

/-- The size of cells is not limited: no distance between events and no difference of such distances exceeds the maximum. -/
structure NoLimit [DistNum D] (s : CresSettings K V D) (events : List (Event K V)) : Prop where
  dist : ∀ e ∈ events, ∀ e' ∈ events, DistNum.le (s.distance e e') s.maxCellSize = true
  diff : ∀ e₁ ∈ events, ∀ e₂ ∈ events, ∀ e₃ ∈ events, ∀ e₄ ∈ events,
    DistNum.le (DistNum.absDiff (s.distance e₁ e₂) (s.distance e₃ e₄)) s.maxCellSize = true

end Cres.Spec
