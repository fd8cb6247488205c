import Verif.Model.Classify

/-!
Model of `classify_ntuple_records` in `src/bin/classify-events.rs`: the records of a ROOT ntuple are distributed over one ntuple per region.
-/

namespace Cres.Classify

variable {R E K : Type*} [DistNum K]

/-- The loop over events (`src/bin/classify-events.rs:191-202`); `event` converts and clusters a record, and an item of the reader may be
an error. The records written so far are returned together with the result; a panic is an index out of range. Writing does not fail. -/
def ntupleLoop (event : R → Outcome ReadError E) (p : VPTreePartition E K) :
    List (Outcome ReadError R) → List (List R) → Outcome ReadError Unit × List (List R)
  | [], writers => (.ok (), writers)
  | .err e :: _, writers => (.err e, writers)
  | .panic :: _, writers => (.panic, writers)
  | .ok r :: rs, writers =>
    match event r with
    | .ok e =>
      let region := p.region e
      match writers[region]? with
      | some w => ntupleLoop event p rs (writers.set region (w ++ [r]))
      | none => (.panic, writers)
    | .err e => (.err e, writers)
    | .panic => (.panic, writers)

/-- `classify_ntuple_records` (`src/bin/classify-events.rs:155-204`) for the items of the reader: the records in the output files.
The compression option is ignored. -/
def classifyNTuple (event : R → Outcome ReadError E) (p : VPTreePartition E K) (items : List (Outcome ReadError R)) :
    Outcome ReadError Unit × List (List R) :=
  ntupleLoop event p items (List.replicate p.len [])

end Cres.Classify
