import Verif.Spec.PipeWitness
import Verif.Spec.Witness
import Verif.Spec.Gentle

/-!
# Concrete schedules of engines whose index calls overlap, for examples and counterexamples
-/

namespace Riot

variable {D : Type}

/-- The pipeline actions, and index calls begin. -/
def fineCands (z : PipeSize) : List (FAct z D) :=
  (demoActs z ++ demoRanks z).map .pipe ++ (List.finRange z.shards).flatMap (fun s => [.beginAdd s, .beginRem s])

/-- The actions of the shards. -/
def shardCands (z : PipeSize) : List (FAct z D) :=
  (List.finRange z.shards).flatMap (fun s => [.add s, .rem s])

/-- The first candidate that is possible, again and again. -/
def Fine.greedy {c : PipeCfg D} (so : Sorter) (cands : List (FAct c.toPipeSize D)) :
    Nat → Fine c → List (FAct c.toPipeSize D)
  | 0, _ => []
  | n + 1, st =>
    match cands.find? (fun a => (st.step so a).isSome) with
    | none => []
    | some a => match st.step so a with
      | none => []
      | some st' => a :: st'.greedy so cands n

/-- Run `calls` one after the other, each followed by actions from `cands`. -/
def Fine.session {c : PipeCfg D} (so : Sorter) (cands : List (FAct c.toPipeSize D)) :
    List (Fin c.clients × Call D) → Fine c → List (FAct c.toPipeSize D)
  | [], st => st.greedy so cands 300
  | (i, a) :: l, st =>
    let as := st.greedy so cands 300 ++ [.pipe (.call i a)]
    match st.run so as with
    | none => []
    | some st' => as ++ st'.session so cands l

end Riot
