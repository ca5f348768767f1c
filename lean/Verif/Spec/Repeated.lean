import Verif.Spec.Races

/-!
# Documents that are indexed again and again, without waiting, but never removed
-/

namespace Riot

variable {D : Type} {c : PipeCfg D}

/-- A Flush completed and no call about document `d` was made since. Before that Flush there may have been any calls about `d`, at the same time or
one after the other. -/
def CallsFlushed (db : Fin c.stores → List (Str × D)) (st : Pipe c) (d : Str) : Prop :=
  ∃ (as : List (Act c.toPipeSize D)) (i : Fin c.clients) (st1 st2 : Pipe c) (bs : List (Act c.toPipeSize D)),
    (Pipe.start c db).run as = some st1 ∧ FlushCompletes i st1 st2 ∧ st2.run bs = some st ∧
    ∀ j a, Act.call j a ∈ bs → a.about d = false

/-- ... and no call has removed `d`. -/
structure OnlyIndexed (db : Fin c.stores → List (Str × D)) (st : Pipe c) (d : Str) : Prop where
  flushed : CallsFlushed db st d
  kept : ∀ f, Call.remove d f ∉ st.given db

/-- `x` was given to shard `s` as data of document `d`. -/
def VersionOn (c : PipeCfg D) (s : Fin c.shards) (calls : List (Call D)) (d : Str) (x : D) : Prop :=
  (∃ g, Call.index d x g ∈ calls) ∧ c.route d x = s

end Riot
