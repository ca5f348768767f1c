import Verif.Spec.Repeated

/-!
# Documents that were indexed again since an earlier Flush
-/

namespace Riot

variable {D F A : Type} {c : PipeCfg D}

/-- Between the moments `b0` and `b` of a run the calls `news` were made; document `d` is not removed by them. At `b0`, and again at `b`, a Flush had
completed since the last call about `d`. (The calls about `d` before `b0`, and those between, may be any and may race.) -/
structure UpdatedBetween (E : EngCfg D F A) (st0 : Full c F A) (db : Fin c.stores → List (Str × D)) (as : List (EAct c.toPipeSize D F)) (b0 b : Nat)
    (d : Str) (news : List (Call D)) : Prop where
  order : b0 ≤ b
  before : CallsFlushed db (Full.after E st0 as b0).fine.pipe d
  after : CallsFlushed db (Full.after E st0 as b).fine.pipe d
  calls : (Full.after E st0 as b).fine.pipe.given db = (Full.after E st0 as b0).fine.pipe.given db ++ news
  kept : ∀ f, Call.remove d f ∉ news


/-- ... or the calls between remove `d`, once or more, and do not index it. -/
structure RemovedBetween (E : EngCfg D F A) (st0 : Full c F A) (db : Fin c.stores → List (Str × D)) (as : List (EAct c.toPipeSize D F)) (b0 b : Nat)
    (d : Str) (news : List (Call D)) : Prop where
  order : b0 ≤ b
  before : CallsFlushed db (Full.after E st0 as b0).fine.pipe d
  after : CallsFlushed db (Full.after E st0 as b).fine.pipe d
  calls : (Full.after E st0 as b).fine.pipe.given db = (Full.after E st0 as b0).fine.pipe.given db ++ news
  removed : ∃ f, Call.remove d f ∈ news
  noIndex : ∀ x g, Call.index d x g ∉ news

end Riot
