import Verif.Model.Lifecycle
import Verif.Props.Options

/-!
# C121: calls in the wrong order
-/

namespace Riot

variable {F : Type}

/-! ## Specification -/

/-- The engine was initialised by one of the calls. -/
def Initialised (cs : List (ApiCall F)) : Prop := ∃ o m, ApiCall.init o m ∈ cs

/-- ... with a store (asked for, or switched on because 99.99 % of the memory were in use, C86). -/
def WithStore (cs : List (ApiCall F)) : Prop := ∃ o m, ApiCall.init o m ∈ cs ∧ (o.useStore = true ∨ m = str "99.99")

/-- How a call ends, given the calls before it. -/
def EndsAs (before : List (ApiCall F)) : ApiCall F → CallEnd → Prop
  | .init _ _, e => (Initialised before ∧ e = .fatal) ∨ (¬ Initialised before ∧ e = .returns)
  | .withGse, e => (Initialised before ∧ e = .fatal) ∨ (¬ Initialised before ∧ e = .returns)
  | .index _, e => (Initialised before ∧ e = .returns) ∨ (¬ Initialised before ∧ e = .fatal)
  | .removeDoc _, e => (Initialised before ∧ e = .returns) ∨ (¬ Initialised before ∧ e = .fatal)
  | .search, e => (Initialised before ∧ e = .returns) ∨ (¬ Initialised before ∧ e = .fatal)
  | .flush, e => (Initialised before ∧ e = .returns) ∨ (¬ Initialised before ∧ e = .fatal)
  | .close, e => (Initialised before ∧ e = .returns) ∨ (¬ Initialised before ∧ e = .fatal)
  | .hasDocDB _, e => (WithStore before ∧ e = .returns) ∨ (¬ WithStore before ∧ e = .panics)
  | .hasDoc _, e => e = .returns
  | .allIds, e => e = .returns
  | .counters, e => e = .returns

/-- The numbers of shards fit into 32 bits, and nothing is negative. -/
structure EngineOpts.Usual (o : EngineOpts F) : Prop where
  legal : o.Legal
  shards : o.numShards < 2 ^ 32
  stores : o.storeShards < 2 ^ 32

/-! ## Proofs -/

/-- The state after the calls `before`, all of which returned. -/
structure LifeInv (before : List (ApiCall F)) (s : Life F) : Prop where
  init : s.initialized = true ↔ Initialised before
  fresh : s.initialized = false → s.opts.storeShards = 0
  shards : s.initialized = true → goUint32 s.opts.storeShards ≠ 0 ∧ goUint32 s.opts.numShards ≠ 0
  store : WithStore before → goUint32 s.opts.storeShards = s.dbs
  noStore : ¬ WithStore before → s.dbs = 0

theorem goUint32_small {n : Int} (h0 : 0 < n) (h : n < 2 ^ 32) : goUint32 n = n.toNat ∧ goUint32 n ≠ 0 := by
  have : n % 2 ^ 32 = n := Int.emod_eq_of_lt (by omega) h
  unfold goUint32
  rw [this]
  omega

theorem lifeInv_start : LifeInv ([] : List (ApiCall F)) ({} : Life F) := by
  refine ⟨?_, fun _ => rfl, ?_, ?_, fun _ => rfl⟩
  · simp [Initialised]
  · intro h; exact absurd h (by simp)
  · rintro ⟨_, _, h, -⟩; simp at h

/-- Calls other than `Init` and `WithGse` leave the state. -/
theorem lifeInv_snoc {before : List (ApiCall F)} {s : Life F} (h : LifeInv before s) {c : ApiCall F}
    (hc : ∀ o m, c ≠ .init o m) : LifeInv (before ++ [c]) s := by
  have hi : Initialised (before ++ [c]) ↔ Initialised before := by
    constructor
    · rintro ⟨o, m, hm⟩
      rcases List.mem_append.1 hm with hm | hm
      · exact ⟨o, m, hm⟩
      · exact absurd (List.mem_singleton.1 hm).symm (hc o m)
    · rintro ⟨o, m, hm⟩
      exact ⟨o, m, List.mem_append_left _ hm⟩
  have hs : WithStore (before ++ [c]) ↔ WithStore before := by
    constructor
    · rintro ⟨o, m, hm, hx⟩
      rcases List.mem_append.1 hm with hm | hm
      · exact ⟨o, m, hm, hx⟩
      · exact absurd (List.mem_singleton.1 hm).symm (hc o m)
    · rintro ⟨o, m, hm, hx⟩
      exact ⟨o, m, List.mem_append_left _ hm, hx⟩
  exact ⟨h.init.trans hi.symm, h.fresh, h.shards, fun x => h.store (hs.1 x), fun x => h.noStore (fun y => x (hs.2 y))⟩

theorem withStore_init {cs : List (ApiCall F)} (h : WithStore cs) : Initialised cs := by
  obtain ⟨o, m, hm, -⟩ := h
  exact ⟨o, m, hm⟩

/-- The databases of a new engine. -/
theorem engine_stores {cpu clients : Nat} (hcpu : 1 ≤ cpu) {loaded : Bool} {usedMem : Str} {o : EngineOpts F}
    {res : EngineRes F} (ho : o.Usual) (h : o.engine cpu clients loaded usedMem = some res) :
    let o' := ((o.initDef loaded).init cpu).checkMem usedMem
    (o'.useStore = true ↔ o.useStore = true ∨ usedMem = str "99.99") ∧
    (goUint32 o'.storeShards ≠ 0 ∧ goUint32 o'.numShards ≠ 0) ∧
    (o'.useStore = true → goUint32 o'.storeShards = res.size.stores) ∧ (o'.useStore = false → res.size.stores = 0) := by
  intro o'
  obtain ⟨-, d2, -, -, -, -, d7, d8, -⟩ := initDef_fields loaded o
  obtain ⟨-, i2, -, -, -, -, i7⟩ := init_fields cpu (o.initDef loaded)
  obtain ⟨r1, -⟩ := init_rest cpu (o.initDef loaded)
  obtain ⟨-, m2, -, -, -, -, m7, -⟩ := checkMem_fields usedMem ((o.initDef loaded).init cpu)
  have hsh : o'.numShards = if o.numShards = 0 then 8 else o.numShards := by rw [m2, i2, d2]
  have hst : o'.storeShards = if o.storeShards = 0 then 8 else o.storeShards := by rw [m7, i7, d7]
  have hl := ho.legal
  have h1 := hl.shards
  have h2 := hl.stores
  have h3 := ho.shards
  have h4 := ho.stores
  have hn : 0 < o'.numShards ∧ o'.numShards < 2 ^ 32 := by
    rw [hsh]; split <;> omega
  have hs : 0 < o'.storeShards ∧ o'.storeShards < 2 ^ 32 := by
    rw [hst]; split <;> omega
  have hu : o'.useStore = true ↔ o.useStore = true ∨ usedMem = str "99.99" := by
    have hx : ((o.initDef loaded).init cpu).useStore = o.useStore := by rw [r1, d8]
    show (((o.initDef loaded).init cpu).checkMem usedMem).useStore = true ↔ _
    unfold EngineOpts.checkMem
    rw [hx]
    by_cases hb : o.useStore = true
    · rw [if_pos hb, hx]; simp [hb]
    · rw [if_neg hb]
      by_cases hm : usedMem = str "99.99"
      · rw [if_pos hm]; simp [hm]
      · rw [if_neg hm, hx]; simp [hb, hm]
  refine ⟨hu, ⟨(goUint32_small hs.1 hs.2).2, (goUint32_small hn.1 hn.2).2⟩, ?_, ?_⟩
  all_goals
    intro hb
    unfold EngineOpts.engine EngineOpts.resources at h
    simp only [bind, Option.bind_eq_some_iff, pure, Option.some.injEq] at h
    obtain ⟨_, -, _, -, _, -, _, -, _, -, _, -, st, hst', rfl⟩ := h
    replace hst' : goMake (if o'.useStore then o'.storeShards else 0) = some st := hst'
    rw [hb] at hst'
    show _ = _
  · rw [if_pos rfl] at hst'
    unfold goMake at hst'
    rw [if_neg (by omega)] at hst'
    rw [(goUint32_small hs.1 hs.2).1]
    exact Option.some.inj hst'
  · rw [if_neg (by simp)] at hst'
    unfold goMake at hst'
    rw [if_neg (by omega)] at hst'
    exact (Option.some.inj hst').symm

theorem index_ends {before : List (ApiCall F)} {s : Life F} (h : LifeInv before s) (docId : Str) :
    (Initialised before ∧ s.index docId = .returns) ∨ (¬ Initialised before ∧ s.index docId = .fatal) := by
  unfold Life.index
  cases hi : s.initialized with
  | false => exact Or.inr ⟨fun hx => by simp [h.init.2 hx] at hi, by rw [if_pos rfl]⟩
  | true =>
    refine Or.inl ⟨h.init.1 hi, ?_⟩
    obtain ⟨h1, h2⟩ := h.shards hi
    rw [if_neg (by simp), if_neg h1, if_neg (fun hx => h2 hx.2)]

/-- One call. -/
theorem call_ends {cpu clients : Nat} (hcpu : 1 ≤ cpu) (murmur : Str → Nat) {before : List (ApiCall F)} {s : Life F}
    (h : LifeInv before s) {c : ApiCall F} (hc : ∀ o m, c = .init o m → o.Usual) :
    EndsAs before c (s.call cpu clients murmur c).1 ∧
    ((s.call cpu clients murmur c).1 = .returns → LifeInv (before ++ [c]) (s.call cpu clients murmur c).2) := by
  cases c with
  | init o m =>
    have ho := hc o m rfl
    unfold Life.call
    cases hi : s.initialized with
    | true =>
      simp only [if_true]
      exact ⟨Or.inl ⟨h.init.1 hi, rfl⟩, fun hx => by simp at hx⟩
    | false =>
      obtain ⟨res, hres, -⟩ := C65_options (clients := clients) hcpu s.loaded m ho.legal
      have hno : ¬ Initialised before := fun hx => by simp [h.init.2 hx] at hi
      obtain ⟨hu, hsh, hon, hoff⟩ := engine_stores hcpu ho hres
      simp only [hres, Bool.false_eq_true, if_false]
      refine ⟨Or.inr ⟨hno, rfl⟩, fun _ => ⟨?_, ?_, fun _ => hsh, ?_, ?_⟩⟩
      · exact ⟨fun _ => ⟨o, m, by simp⟩, fun _ => rfl⟩
      · intro hx; simp at hx
      · rintro ⟨o', m', hm, hx⟩
        rcases List.mem_append.1 hm with hm | hm
        · exact absurd ⟨o', m', hm⟩ hno
        · have he := List.mem_singleton.1 hm
          injection he with h1 h2
          subst h1; subst h2
          exact hon (hu.2 hx)
      · intro hx
        refine hoff ?_
        rw [← Bool.not_eq_true]
        intro hb
        exact hx ⟨o, m, by simp, hu.1 hb⟩
  | withGse =>
    unfold Life.call
    cases hi : s.initialized with
    | true =>
      simp only [if_true]
      exact ⟨Or.inl ⟨h.init.1 hi, rfl⟩, fun hx => by simp at hx⟩
    | false =>
      simp only [Bool.false_eq_true, if_false]
      have hno : ¬ Initialised before := fun hx => by simp [h.init.2 hx] at hi
      refine ⟨Or.inr ⟨hno, rfl⟩, fun _ => ?_⟩
      have hk := lifeInv_snoc h (c := .withGse) (by simp)
      exact ⟨by rw [← hi]; exact hk.init, fun _ => hk.fresh hi, fun hx => by simp at hx, hk.store, hk.noStore⟩
  | index d => exact ⟨index_ends h d, fun _ => lifeInv_snoc h (by simp)⟩
  | flush => exact ⟨index_ends h _, fun _ => lifeInv_snoc h (by simp)⟩
  | close => exact ⟨index_ends h _, fun _ => lifeInv_snoc h (by simp)⟩
  | removeDoc d =>
    refine ⟨?_, fun _ => lifeInv_snoc h (by simp)⟩
    unfold Life.call EndsAs
    cases hi : s.initialized with
    | false => exact Or.inr ⟨fun hx => by simp [h.init.2 hx] at hi, by simp⟩
    | true =>
      refine Or.inl ⟨h.init.1 hi, ?_⟩
      simp only
      rw [if_neg (by simp), if_neg (fun hx => (h.shards hi).1 hx.2.2)]
  | search =>
    refine ⟨?_, fun _ => lifeInv_snoc h (by simp)⟩
    unfold Life.call EndsAs
    cases hi : s.initialized with
    | false => exact Or.inr ⟨fun hx => by simp [h.init.2 hx] at hi, by simp⟩
    | true => exact Or.inl ⟨h.init.1 hi, by simp⟩
  | hasDoc d => exact ⟨rfl, fun _ => lifeInv_snoc h (by simp)⟩
  | allIds => exact ⟨rfl, fun _ => lifeInv_snoc h (by simp)⟩
  | counters => exact ⟨rfl, fun _ => lifeInv_snoc h (by simp)⟩
  | hasDocDB d =>
    refine ⟨?_, fun _ => lifeInv_snoc h (by simp)⟩
    unfold Life.call EndsAs
    simp only
    by_cases hw : WithStore before
    · refine Or.inl ⟨hw, ?_⟩
      have hi := h.init.2 (withStore_init hw)
      have hz := (h.shards hi).1
      rw [if_neg hz, if_pos (by rw [← h.store hw]; exact Nat.mod_lt _ (Nat.pos_of_ne_zero hz))]
    · refine Or.inr ⟨hw, ?_⟩
      split
      · rfl
      · rw [if_neg (by rw [h.noStore hw]; omega)]

theorem run_ends {cpu clients : Nat} (hcpu : 1 ≤ cpu) (murmur : Str → Nat) :
    ∀ (cs before : List (ApiCall F)) (s : Life F), LifeInv before s → (∀ o m, ApiCall.init o m ∈ cs → o.Usual) →
    ∀ (i : Nat) (c : ApiCall F) (e : CallEnd), cs[i]? = some c → (s.run cpu clients murmur cs)[i]? = some e →
      EndsAs (before ++ cs.take i) c e ∧
      (e = .returns → (s.run cpu clients murmur cs).length > i + 1 ∨ cs.length = i + 1) ∧
      (e ≠ .returns → (s.run cpu clients murmur cs).length = i + 1)
  | [], _, _, _, _, _, _, _, h, _ => by simp at h
  | c :: cs, before, s, hinv, ho, i, c', e, hc, he => by
    obtain ⟨hend, hnext⟩ := call_ends (clients := clients) hcpu murmur hinv (c := c) (fun o m hx => ho o m (by simp [hx]))
    unfold Life.run at he ⊢
    simp only at he ⊢
    cases i with
    | zero =>
      simp only [List.getElem?_cons_zero, Option.some.injEq] at hc he
      subst hc; subst he
      refine ⟨by simpa using hend, fun hr => ?_, fun hr => ?_⟩
      · rw [if_pos hr]
        cases cs with
        | nil => exact Or.inr rfl
        | cons c2 cs2 => exact Or.inl (by unfold Life.run; simp)
      · rw [if_neg hr]; rfl
    | succ i =>
      simp only [List.getElem?_cons_succ] at hc he
      by_cases hr : (s.call cpu clients murmur c).1 = .returns
      · rw [if_pos hr] at he ⊢
        have := run_ends hcpu murmur cs (before ++ [c]) _ (hnext hr) (fun o m hx => ho o m (List.mem_cons_of_mem _ hx)) i c' e hc he
        simpa [List.append_assoc] using this
      · rw [if_neg hr] at he
        simp at he

/-- **C121** (partial) For every program that calls one engine from one goroutine, in whatever order, with options that are
not negative and fewer than 2^32 shards: every call that is made ends as follows. `Index`, `RemoveDoc`, `Search`, `Flush` and `Close`
return if the engine was initialised before, and otherwise exit with a message; `Init` and `WithGse` exit with a message if the engine was initialised
before, and otherwise return; `HasDoc`, the lists of stored documents and the counters always return; `HasDocDB` returns if
the engine has a store, and otherwise panics. The program makes its calls up to the first that does not return.
Missing for the full claim (every call in the wrong order exits with a message, no other call fails): `HasDocDB` panics instead
(`C121_refuted_hasDocDB`), `HasDoc` and others answer silently before `Init`, and a number of shards of 2^32 makes `Index`
panic (`C121_refuted_shards`). -/
theorem C121_calls_partial {cpu clients : Nat} (hcpu : 1 ≤ cpu) (murmur : Str → Nat) (cs : List (ApiCall F))
    (ho : ∀ o m, ApiCall.init o m ∈ cs → o.Usual) (i : Nat) (c : ApiCall F) (e : CallEnd) (hc : cs[i]? = some c)
    (he : (({} : Life F).run cpu clients murmur cs)[i]? = some e) :
    EndsAs (cs.take i) c e ∧
    (e = .returns → (({} : Life F).run cpu clients murmur cs).length > i + 1 ∨ cs.length = i + 1) ∧
    (e ≠ .returns → (({} : Life F).run cpu clients murmur cs).length = i + 1) := by
  simpa using run_ends hcpu murmur cs [] {} lifeInv_start ho i c e hc he

theorem run_pos {cpu clients : Nat} (murmur : Str → Nat) (s : Life F) {cs : List (ApiCall F)} (h : cs ≠ []) :
    0 < (s.run cpu clients murmur cs).length := by
  cases cs with
  | nil => exact absurd rfl h
  | cons c cs => unfold Life.run; simp

theorem ends_unique {before : List (ApiCall F)} {c : ApiCall F} {e e' : CallEnd} (h : EndsAs before c e)
    (h' : EndsAs before c e') : e = e' := by
  cases c <;> simp only [EndsAs] at h h' <;> first | (rw [h, h']) | (rcases h with ⟨h1, h2⟩ | ⟨h1, h2⟩ <;> rcases h' with ⟨h3, h4⟩ | ⟨h3, h4⟩ <;> first | exact absurd h1 h3 | exact absurd h3 h1 | (rw [h2, h4]))

theorem run_length {cpu clients : Nat} (murmur : Str → Nat) :
    ∀ (cs : List (ApiCall F)) (s : Life F), (s.run cpu clients murmur cs).length ≤ cs.length
  | [], _ => Nat.le_refl _
  | c :: cs, s => by
    unfold Life.run
    simp only [List.length_cons]
    split
    · exact Nat.succ_le_succ (run_length murmur cs _)
    · simp

/-- The whole program: it makes all its calls and they return exactly if each call is made in the right order. -/
theorem C121_runs_through_partial {cpu clients : Nat} (hcpu : 1 ≤ cpu) (murmur : Str → Nat) (cs : List (ApiCall F))
    (ho : ∀ o m, ApiCall.init o m ∈ cs → o.Usual) :
    ({} : Life F).run cpu clients murmur cs = cs.map (fun _ => .returns) ↔
    ∀ i c, cs[i]? = some c → EndsAs (cs.take i) c .returns := by
  constructor
  · intro h i c hc
    refine (C121_calls_partial (clients := clients) hcpu murmur cs ho i c .returns hc ?_).1
    rw [h, List.getElem?_map, hc]
    rfl
  · intro h
    have key : ∀ i : Nat, i < cs.length → (({} : Life F).run cpu clients murmur cs)[i]? = some .returns := by
      intro i
      induction i with
      | zero =>
        intro hi
        have hp := run_pos (cpu := cpu) (clients := clients) murmur ({} : Life F) (List.ne_nil_of_length_pos hi)
        obtain ⟨e, he⟩ : ∃ e : CallEnd, (({} : Life F).run cpu clients murmur cs)[0]? = some e := ⟨_, List.getElem?_eq_getElem hp⟩
        have := C121_calls_partial (clients := clients) hcpu murmur cs ho 0 _ e (List.getElem?_eq_getElem hi) he
        rw [he, ends_unique this.1 (h 0 _ (List.getElem?_eq_getElem hi))]
      | succ i ih =>
        intro hi
        have hprev := C121_calls_partial (clients := clients) hcpu murmur cs ho i _ _
          (List.getElem?_eq_getElem (by omega : i < cs.length)) (ih (by omega))
        have hlen : i + 1 < (({} : Life F).run cpu clients murmur cs).length := by
          rcases hprev.2.1 rfl with hx | hx <;> omega
        obtain ⟨e, he⟩ : ∃ e : CallEnd, (({} : Life F).run cpu clients murmur cs)[i + 1]? = some e :=
          ⟨_, List.getElem?_eq_getElem hlen⟩
        have := C121_calls_partial (clients := clients) hcpu murmur cs ho (i + 1) _ e (List.getElem?_eq_getElem hi) he
        rw [he, ends_unique this.1 (h (i + 1) _ (List.getElem?_eq_getElem hi))]
    refine List.ext_getElem? (fun i => ?_)
    by_cases hi : i < cs.length
    · rw [key i hi, List.getElem?_map, List.getElem?_eq_getElem hi]
      rfl
    · rw [List.getElem?_eq_none (le_trans (run_length murmur cs _) (Nat.le_of_not_lt hi)), List.getElem?_eq_none (by simpa using hi)]

/-! ## Refutations and examples -/

/-- An engine without store, options usual. -/
def plainOpts : EngineOpts Nat := { numShards := 2, notUseGse := true }

theorem plainOpts_usual : plainOpts.Usual := ⟨⟨by decide, by decide, by decide, by decide, by decide, by decide, by decide⟩, by decide, by decide⟩

/-- **C121 refuted** `HasDocDB` panics (instead of a message, or the answer false) on an engine that is not initialised, and on
every initialised engine without store. -/
theorem C121_refuted_hasDocDB {cpu clients : Nat} (hcpu : 1 ≤ cpu) (murmur : Str → Nat) (id : Str) (o : EngineOpts F) (ho : o.Usual)
    (hs : o.useStore = false) :
    ({} : Life F).run cpu clients murmur [.hasDocDB id] = [.panics] ∧
    ({} : Life F).run cpu clients murmur [.init o [], .hasDocDB id] = [.returns, .panics] := by
  refine ⟨rfl, ?_⟩
  have h1 := call_ends (clients := clients) hcpu murmur (lifeInv_start (F := F)) (c := .init o [])
    (fun o' m' hx => by injection hx with h1 _; exact h1 ▸ ho)
  have hr : (({} : Life F).call cpu clients murmur (.init o [])).1 = .returns :=
    ends_unique h1.1 (Or.inr ⟨fun ⟨_, _, hx⟩ => by simp at hx, rfl⟩)
  have h2 := (call_ends (clients := clients) hcpu murmur (h1.2 hr) (c := .hasDocDB id) (fun _ _ hx => by simp at hx)).1
  have hn : ¬ WithStore ([] ++ [ApiCall.init o []]) := by
    rintro ⟨o', m', hm, hx⟩
    simp only [List.nil_append, List.mem_singleton, ApiCall.init.injEq] at hm
    obtain ⟨rfl, rfl⟩ := hm
    rcases hx with hx | hx
    · rw [hs] at hx; simp at hx
    · exact absurd hx (by decide +kernel)
  have hp := ends_unique h2 (Or.inr ⟨hn, rfl⟩ : EndsAs ([] ++ [ApiCall.init o []]) (.hasDocDB id) .panics)
  unfold Life.run
  simp only [hr, if_true]
  unfold Life.run
  simp only [hp]
  rfl

/-- **C121 refuted** With 2^32 databases set, and no store used, initialising works and the first document ends the program with
a division by zero. -/
theorem C121_refuted_shards (murmur : Str → Nat) (id : Str) :
    ({} : Life Nat).run 4 1 murmur [.init { plainOpts with storeShards := 4294967296 } [], .index id] = [.returns, .panics] := by
  kernel_rfl

/-- A program in the right order (with a store), and five in the wrong one. -/
example : ({} : Life Nat).run 4 1 (fun s => s.length) [.withGse, .hasDoc (str "1"), .init { plainOpts with useStore := true } [], .index (str "1"),
      .flush, .search, .hasDocDB (str "1"), .removeDoc (str "1"), .close, .counters] = List.replicate 10 .returns ∧
    ({} : Life Nat).run 4 1 (fun s => s.length) [.flush, .init plainOpts []] = [.fatal] ∧
    ({} : Life Nat).run 4 1 (fun s => s.length) [.hasDoc [], .search] = [.returns, .fatal] ∧
    ({} : Life Nat).run 4 1 (fun s => s.length) [.init plainOpts [], .init plainOpts []] = [.returns, .fatal] ∧
    ({} : Life Nat).run 4 1 (fun s => s.length) [.init plainOpts [], .close, .withGse, .close] = [.returns, .returns, .fatal] ∧
    ({} : Life Nat).run 4 1 (fun s => s.length) [.index (str "1")] = [.fatal] := by
  decide +kernel

end Riot
