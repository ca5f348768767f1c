import Verif.Props.History

/-! # An instance of `C98_engines_partial`: the same documents in another order, on another schedule -/

namespace Riot

variable {D : Type} {c : PipeCfg D}

/-- If every document was indexed once and none removed, the last data is the data. -/
theorem latestOn_once {s : Fin c.shards} {docs : List (Str × D)} {rest : List (Call D)} (hnd : (docs.map (·.1)).Nodup)
    (hrest : ∀ a ∈ rest, a = Call.flush) (d : Str) (x : D) :
    LatestOn c s (docs.map (fun y => Call.index y.1 y.2 false) ++ rest) d x ↔ c.route d x = s ∧ (d, x) ∈ docs := by
  constructor
  · rintro ⟨l1, g, l2, e, h2, _⟩
    have hm : Call.index d x g ∈ docs.map (fun y => Call.index y.1 y.2 false) ++ rest := by rw [e]; simp
    rcases List.mem_append.1 hm with hm | hm
    · obtain ⟨y, hy, hyy⟩ := List.mem_map.1 hm
      simp only [Call.index.injEq] at hyy
      obtain ⟨rfl, rfl, _⟩ := hyy
      exact ⟨h2, hy⟩
    · have := hrest _ hm; cases this
  · rintro ⟨h1, h2⟩
    obtain ⟨a, b, rfl⟩ := List.append_of_mem h2
    refine ⟨a.map (fun y => Call.index y.1 y.2 false), false, b.map (fun y => Call.index y.1 y.2 false) ++ rest, by simp, h1, ?_, ?_⟩
    · intro f hf
      rcases List.mem_append.1 hf with hf | hf
      · simp at hf
      · have := hrest _ hf; cases this
    · intro y h hf
      exfalso
      rcases List.mem_append.1 hf with hf | hf
      · obtain ⟨z, hz, hzz⟩ := List.mem_map.1 hf
        simp only [Call.index.injEq] at hzz
        obtain ⟨rfl, rfl, _⟩ := hzz
        rw [List.map_append, List.nodup_append, List.map_cons, List.nodup_cons] at hnd
        exact hnd.2.1.1 (List.mem_map.2 ⟨_, hz, rfl⟩)
      · have := hrest _ hf; cases this

/-- The documents of `statRun`, indexed in the opposite order. -/
def backLoad : List (EAct statEngine.toPipeSize Nat Nat) := statStart.script statEng
  [.inr (engineCands _),
   .inl (.pipe (.call statUser (.index (str "D") 6 false))), .inr (engineCands _),
   .inl (.pipe (.call statUser (.index (str "C") 4 false))), .inr (engineCands _),
   .inl (.pipe (.call statUser (.index (str "B") 2 false))), .inr (engineCands _),
   .inl (.pipe (.call statUser (.index (str "A") 1 false))), .inr (engineCands _)]
def backLoaded : Full statEngine Nat Nat := (statStart.run statEng backLoad).getD statStart
def backTail : List (EAct statEngine.toPipeSize Nat Nat) :=
  ((backLoaded.step statEng (.pipe (.call statUser .flush))).getD backLoaded).greedy statEng (engineCands _) 300
def backFlush : List (EAct statEngine.toPipeSize Nat Nat) := .pipe (.call statUser .flush) :: backTail
def backFlushed : Full statEngine Nat Nat := (backLoaded.run statEng backFlush).getD backLoaded
def backSearch : List (EAct statEngine.toPipeSize Nat Nat) :=
  .start searchRed :: ((backFlushed.step statEng (.start searchRed)).getD backFlushed).greedy statEng (searchCands _ 1) 300
def backRun : List (EAct statEngine.toPipeSize Nat Nat) := backLoad ++ backFlush ++ backSearch

/-- All hypotheses of `C98_engines_partial` about one run. -/
structure FlushedRun (as : List (EAct statEngine.toPipeSize Nat Nat)) (given : List (Call Nat)) (f b : Nat) : Prop where
  ran : ∃ st, statStart.run statEng as = some st
  gentle : statStart.Gentle statEng statOpts (fun _ => []) as
  flush : as[f]? = some (.pipe (.call statUser .flush))
  last : ∀ t j (a : Call Nat), f < t → as[t]? ≠ some (.pipe (.call j a))
  before : f < b
  later : b < as.length
  quiet : (Full.after statEng statStart as b).fine.pipe.Quiet
  rounds : ∀ d, d ≠ str "0" → ∃ l, Rounds (fun _ => []) d (Full.after statEng statStart as b).fine.pipe l
  given : (Full.after statEng statStart as b).fine.pipe.given (fun _ => []) = given

theorem flushedRun_of {load tail rest : List (EAct statEngine.toPipeSize Nat Nat)} {st1 st2 : Full statEngine Nat Nat}
    {docs : List (Str × Nat)}
    (rl : statStart.run statEng load = some st1) (rf : st1.run statEng (.pipe (.call statUser .flush) :: tail) = some st2)
    (hg : (statStart.gentleRun statEng statOpts (fun _ => []) (load ++ .pipe (.call statUser .flush) :: tail ++ rest)).isSome = true)
    (hidle : (decide (∀ i, st1.fine.pipe.prog (.client i) = [])) = true) (htail : tail.all (fun a => a.call?.isNone) = true)
    (hdone : st2.fine.pipe.prog (.client statUser) = []) (hq : st2.fine.pipe.quietB = true)
    (hcalls : st1.fine.pipe.calls.map (·.2) = docs.map (fun x => Call.index x.1 x.2 false)) (hnd : (docs.map (·.1)).Nodup)
    (hcl2 : (st2.fine.pipe.given (fun _ => [])).all (fun a => a.indexed.isSome || a.isFlush) = true)
    (hgiven : st2.fine.pipe.given (fun _ => []) = docs.map (fun x => Call.index x.1 x.2 false) ++ [.flush])
    (hb : ((load ++ .pipe (.call statUser .flush) :: tail).filter EAct.isStart).length = 0) (hst : rest[0]? = some (.start searchRed))
    (hno : rest.all (fun a => a.call?.isNone) = true) :
    ∃ b, FlushedRun (load ++ .pipe (.call statUser .flush) :: tail ++ rest)
      (docs.map (fun x => Call.index x.1 x.2 false) ++ [.flush]) load.length b := by
  obtain ⟨st, h1⟩ := Option.isSome_iff_exists.1 hg
  obtain ⟨g1, g2⟩ := full_gentleRun_spec _ h1
  have hrec : statEngine.recovered (fun _ => []) = [] := by decide +kernel
  obtain ⟨b, k1, k2, k3, _, _, k6, k7, k8, k9⟩ := late_hyps_list (c := statEngine) (E := statEng) (o := statOpts)
    (db := fun _ => []) (tail := tail) (rest := rest) (fun _ _ => rfl) rl rf (of_decide_eq_true hidle) htail hdone (quiet_of_B hq)
    (docs := docs) (by rw [hrec]; exact hcalls) hnd hcl2 hb hst hno rfl
  have hlt := (List.getElem?_eq_some_iff.1 k1.1).1
  have k6' : Full.after statEng statStart (load ++ .pipe (.call statUser .flush) :: tail ++ rest) b = st2 := k6
  exact ⟨b, ⟨st, g1⟩, g2, k8, k9, k7, hlt, k2, k3, by rw [k6']; exact hgiven⟩

theorem stat_flushed : ∃ b, FlushedRun statRun ([(str "A", 1), (str "B", 2), (str "C", 4), (str "D", 6)].map
    (fun x => Call.index x.1 x.2 false) ++ [.flush]) statLoad.length b := by
  have hl : (statStart.run statEng statLoad).isSome = true := by decide +kernel
  have hf : (statLoaded.run statEng statFlush).isSome = true := by decide +kernel
  have rl : statStart.run statEng statLoad = some statLoaded := by
    obtain ⟨x, hx⟩ := Option.isSome_iff_exists.1 hl
    rw [statLoaded, hx, Option.getD_some]
  have rf : statLoaded.run statEng statFlush = some statFlushed := by
    obtain ⟨x, hx⟩ := Option.isSome_iff_exists.1 hf
    rw [statFlushed, hx, Option.getD_some]
  exact flushedRun_of (tail := statTail) (rest := statSearch) rl rf (by decide +kernel) (by decide +kernel) (by decide +kernel)
    (by decide +kernel) (by decide +kernel) (by decide +kernel) (by decide +kernel) (by decide +kernel) (by decide +kernel) (by decide +kernel)
    (by rw [statSearch]; rfl) (by decide +kernel)

theorem back_flushed : ∃ b, FlushedRun backRun ([(str "D", 6), (str "C", 4), (str "B", 2), (str "A", 1)].map
    (fun x => Call.index x.1 x.2 false) ++ [.flush]) backLoad.length b := by
  have hl : (statStart.run statEng backLoad).isSome = true := by decide +kernel
  have hf : (backLoaded.run statEng backFlush).isSome = true := by decide +kernel
  have rl : statStart.run statEng backLoad = some backLoaded := by
    obtain ⟨x, hx⟩ := Option.isSome_iff_exists.1 hl
    rw [backLoaded, hx, Option.getD_some]
  have rf : backLoaded.run statEng backFlush = some backFlushed := by
    obtain ⟨x, hx⟩ := Option.isSome_iff_exists.1 hf
    rw [backFlushed, hx, Option.getD_some]
  exact flushedRun_of (tail := backTail) (rest := backSearch) rl rf (by decide +kernel) (by decide +kernel) (by decide +kernel)
    (by decide +kernel) (by decide +kernel) (by decide +kernel) (by decide +kernel) (by decide +kernel) (by decide +kernel) (by decide +kernel)
    (by rw [backSearch]; rfl) (by decide +kernel)

/-- The hypotheses of `C98_engines_partial` hold of the two runs: at the moment the search begins the shards answer every request
the same. -/
theorem demo_engines : ∃ b b', FlushedRun statRun ([(str "A", 1), (str "B", 2), (str "C", 4), (str "D", 6)].map
      (fun x => Call.index x.1 x.2 false) ++ [.flush]) statLoad.length b ∧
    FlushedRun backRun ([(str "D", 6), (str "C", 4), (str "B", 2), (str "A", 1)].map
      (fun x => Call.index x.1 x.2 false) ++ [.flush]) backLoad.length b' ∧
    ∀ (s : Fin statEngine.shards) (tokens : List Str),
      ((Full.after statEng statStart statRun b).fine.shard s).ix.lookup statEng.log2 tokens [] none false none =
        ((Full.after statEng statStart backRun b').fine.shard s).ix.lookup statEng.log2 tokens [] none false none := by
  obtain ⟨b, h⟩ := stat_flushed
  obtain ⟨b', h'⟩ := back_flushed
  refine ⟨b, b', h, h', fun s tokens => ?_⟩
  obtain ⟨st, hst⟩ := h.ran
  obtain ⟨st', hst'⟩ := h'.ran
  have htext : FromTexts statEngine statEng statTexts := fun id x => docOf_isDocIndexOf _ _ _ _
  have hgs : GentleStart statEngine statOpts (fun _ => []) := by
    intro s
    have : statEngine.recovered (fun _ => []) = [] := by decide +kernel
    rw [this]; simp only [List.map_nil, List.countP_nil]; decide +kernel
  refine C98_engines_partial htext.docOk htext.keysOk htext.docOk htext.keysOk (fun d x => ⟨rfl, rfl, .refl _⟩) insSort_ok insSort_ok
    rfl rfl hgs hgs hst hst' h.gentle h'.gentle h.flush h.last h'.flush h'.last h.before h.quiet h'.before h'.quiet h.rounds h'.rounds
    s s (fun d _ x => ?_) (Nat.le_refl _) h.later (Nat.le_refl _) h'.later _ _ _ _ _ _
  have g1 := h.given
  have g2 := h'.given
  unfold statStart at g1 g2
  rw [g1, g2, latestOn_once (by decide +kernel) (by simp), latestOn_once (by decide +kernel) (by simp)]
  simp only [List.mem_cons, List.not_mem_nil, or_false]
  constructor
  · rintro ⟨a, b | b | b | b⟩ <;> exact ⟨a, by simp [b]⟩
  · rintro ⟨a, b | b | b | b⟩ <;> exact ⟨a, by simp [b]⟩

end Riot
