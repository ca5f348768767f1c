import Verif.Model.Net
import Verif.Spec.EngineSearch

/-!
# Distributed search: what a user expects
-/

namespace Riot.Net

/-- `a` may stand before `b`: it is newer, or equally old with an id that is not smaller. -/
def NotAfter (a b : Text) : Prop := b.ts < a.ts ∨ (a.ts = b.ts ∧ b.id ≤ a.id)

/-- Ordered by time stamp, then id, the largest first. -/
def NewestFirst (l : List Text) : Prop := l.Pairwise NotAfter

/-- The expected merge: the first `max` documents of all documents of all servers, ordered. -/
def IdealMerge (max : Nat) (answers : List (List Text)) (out : List Text) : Prop :=
  ∃ R : List Text, R.Perm answers.flatten ∧ NewestFirst R ∧ out = R.take max

/-- A request with offset and limit (0: not given) asks for position `off`, limit `m`: its own if it has
a limit, else the configured ones. -/
def Asks (conf : Conf) (offset max : Int) (off m : Nat) : Prop :=
  (max ≠ 0 ∧ offset = off ∧ max = m) ∨ (max = 0 ∧ conf.outputOffset = off ∧ conf.maxOutputs = m)

/-- The text a server shows for a stored document. -/
def Shows {F : Type} (d : ScoredDoc F AttriVal) (t : Text) : Prop :=
  t.id = d.scoredID.docId ∧ t.content = d.content ∧ d.attri = some (.attri t.time t.ts)

/-- No goroutine reads the shared slice while another one is between its read and its write. -/
def Serial (as : List CollAct) : Prop :=
  ∀ pre r i rest, as = pre ++ .load r i :: rest → rest = [] ∨ rest.head? = some (.store r i)

end Riot.Net
