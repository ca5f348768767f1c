import Verif.Model.RankerConc
import Verif.Spec.Ranker

/-!
# Ranking during updates
-/

namespace Riot

variable {F A : Type}

/-- The AddDoc/RemoveDoc calls of a run, in the order in which they were executed. -/
def rankOps (as : List (RAct F A)) : List (RankerOp F A) :=
  as.filterMap (fun a => match a with | .op x => some x | _ => none)

/-- The document an AddDoc/RemoveDoc call is about. -/
def RankerOp.aboutId : RankerOp F A → Str
  | .add id _ _ => id
  | .remove id => id

/-- Moments at which the candidates of a call are looked up: one per candidate, in order, none
before the call began and none after it ended. A moment is the number of AddDoc/RemoveDoc calls
executed before. -/
structure Moments (docs : List IndexedDoc) (from_ to_ : Nat) (ts : List Nat) : Prop where
  length : ts.length = docs.length
  order : ts.Pairwise (· ≤ ·)
  bounds : ∀ t ∈ ts, from_ ≤ t ∧ t ≤ to_

/-- The entries the candidates get if candidate `j` is looked up at moment `ts[j]` of history `h`. -/
def entriesAt (h : List (RankerOp F A)) (score : IndexedDoc → Option F → List F32) (docs : List IndexedDoc)
    (ts : List Nat) : List (ScoredDoc F A) :=
  (docs.zip ts).filterMap (fun x => expectedScored (rankIdeal (h.take x.2)) score x.1)

/-- `out` is what ranking the entries `E` should return: the requested page of `E` in the requested
order (if the scores are comparable), and the number of entries. -/
def IsRankingOf (idOnly countOnly : Bool) (reverse : Bool) (off m : Nat) (E : List (ScoredDoc F A))
    (out : RankOut F A × Nat) : Prop :=
  out.2 = E.length ∧
  ∃ full : List (ScoredDoc F A), full.Perm E ∧
    ((∀ x ∈ E, NoNaN x.scoredID.scores) → Ranked reverse full) ∧
    out.1 = match countOnly, idOnly with
      | true, true => .ids []
      | true, false => .docs []
      | false, true => .ids (page off m (full.map (·.scoredID)))
      | false, false => .docs (page off m full)

end Riot
