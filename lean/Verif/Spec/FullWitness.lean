import Verif.Spec.Full
import Verif.Spec.FineWitness

/-!
# Concrete schedules of whole engines, for examples and counterexamples
-/

namespace Riot

variable {D F A : Type} {c : PipeCfg D}

/-- Every action of the pipeline and of the shards. -/
def engineCands (z : PipeSize) : List (EAct z D F) :=
  (demoActs z ++ demoRanks z).map .pipe ++
    (List.finRange z.shards).flatMap (fun s => [.beginAdd s, .beginRem s, .add s, .rem s])

/-- Every action of searches `0` to `n - 1`. -/
def searchCands (z : PipeSize) (n : Nat) : List (EAct z D F) :=
  (List.range n).flatMap (fun k => [.send k, .recv k] ++ (List.finRange z.shards).flatMap (fun s =>
    [.take s, .lock s k, .look s k, .reply s k, .forward s k, .takeRank s, .read s k, .replyRank s k]))

/-- The first candidate that is possible, again and again. -/
def Full.greedy (E : EngCfg D F A) (cands : List (EAct c.toPipeSize D F)) :
    Nat → Full c F A → List (EAct c.toPipeSize D F)
  | 0, _ => []
  | n + 1, st =>
    match cands.findSome? (fun a => (st.step E a).map (fun st' => (a, st'))) with
    | none => []
    | some (a, st') => a :: st'.greedy E cands n

/-- Scripts: fixed actions, and greedy phases. -/
def Full.script (E : EngCfg D F A) :
    List (EAct c.toPipeSize D F ⊕ List (EAct c.toPipeSize D F)) → Full c F A → List (EAct c.toPipeSize D F)
  | [], _ => []
  | .inl a :: l, st =>
    match st.step E a with
    | none => [a]
    | some st' => a :: st'.script E l
  | .inr cands :: l, st =>
    let as := st.greedy E cands 300
    match st.run E as with
    | none => as
    | some st' => as ++ st'.script E l

/-- An engine with two shards: content is a number, every document has the key "k", and the shard is the
number modulo 2. -/
def pairEngine : PipeCfg Nat :=
  { demoPipe 2 2 1 (by decide) (by decide) false with docOf := fun id _ => ⟨id, 1, [⟨str "k", 1, [0]⟩]⟩ }

end Riot
