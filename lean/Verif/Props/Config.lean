import Verif.Props.Options
import Verif.Spec.Config

/-!
# C85: the store backend; C86: an engine without a store; C87: the configuration of a server
-/

namespace Riot

variable {F : Type}

theorem supported_get (name : Str) (b : Backend) : supportedStore.get name = some b ↔ BuiltIn name b := by
  unfold supportedStore
  rw [GoMap.get_set, GoMap.get_set, GoMap.get_set]
  have e1 : str "ldb" ≠ str "bg" := by decide +kernel
  have e2 : str "ldb" ≠ str "bolt" := by decide +kernel
  have e3 : str "bg" ≠ str "bolt" := by decide +kernel
  constructor
  · intro h
    split at h
    · rename_i h1; cases h; rw [h1]; exact .ldb
    · split at h
      · rename_i h1; cases h; rw [h1]; exact .bg
      · split at h
        · rename_i h1; cases h; rw [h1]; exact .bolt
        · simp [GoMap.empty, GoMap.get] at h
  · intro h
    cases h
    · simp
    · simp [e1.symm]
    · simp [e2.symm, e3.symm]

theorem register_get (calls : List (Str × Backend)) (name : Str) (b : Backend) :
    (registerStores calls).get name = some b ↔ StandsFor calls name b := by
  induction calls using List.reverseRecOn with
  | nil => simp [registerStores, StandsFor, supported_get]
  | append_singleton l a ih =>
    have e : registerStores (l ++ [a]) = (registerStores l).set a.1 a.2 := by
      simp [registerStores, List.foldl_append]
    rw [e, GoMap.get_set]
    split
    · rename_i h
      constructor
      · intro hb
        cases hb
        exact Or.inl ⟨l, [], by rw [h], by simp⟩
      · rintro (⟨l1, l2, h1, h2⟩ | ⟨h1, _⟩)
        · rcases List.eq_nil_or_concat l2 with rfl | ⟨l3, c, rfl⟩
          · have := (List.append_inj' h1 rfl).2
            simp only [List.cons.injEq, and_true] at this
            rw [this]
          · exfalso
            rw [List.concat_eq_append] at h1 h2
            have h1' : l ++ [a] = (l1 ++ (name, b) :: l3) ++ [c] := by rw [h1]; simp
            have := (List.append_inj' h1' rfl).2
            simp only [List.cons.injEq, and_true] at this
            exact h2 a.2 (by rw [← this]; simp [h])
        · exact absurd (by simp [h]) (h1 a.2)
    · rename_i h
      rw [ih]
      have hne : ∀ b', (name, b') ≠ a := fun b' he => h (by rw [← he])
      unfold StandsFor
      constructor
      · rintro (⟨l1, l2, h1, h2⟩ | ⟨h1, h2⟩)
        · refine Or.inl ⟨l1, l2 ++ [a], by rw [h1]; simp, fun b' hm => ?_⟩
          rcases List.mem_append.1 hm with hm | hm
          · exact h2 b' hm
          · exact hne b' (List.mem_singleton.1 hm)
        · refine Or.inr ⟨fun b' hm => ?_, h2⟩
          rcases List.mem_append.1 hm with hm | hm
          · exact h1 b' hm
          · exact hne b' (List.mem_singleton.1 hm)
      · rintro (⟨l1, l2, h1, h2⟩ | ⟨h1, h2⟩)
        · rcases List.eq_nil_or_concat l2 with rfl | ⟨l3, c, rfl⟩
          · have := (List.append_inj' h1 rfl).2
            simp only [List.cons.injEq, and_true] at this
            exact absurd this.symm (hne b)
          · rw [List.concat_eq_append] at h1 h2
            have h1' : l ++ [a] = (l1 ++ (name, b) :: l3) ++ [c] := by rw [h1]; simp
            exact Or.inl ⟨l1, l3, (List.append_inj' h1' rfl).1, fun b' hm => h2 b' (List.mem_append_left _ hm)⟩
        · exact Or.inr ⟨fun b' hm => h1 b' (List.mem_append_left _ hm), h2⟩

/-- The value of a decimal number. -/
def decimal (s : Str) : Nat := s.foldl (fun n c => 10 * n + (c.val - 48)) 0

theorem decimal_itoa (n : Nat) : decimal (itoa n) = n := by
  induction n using Nat.strongRecOn with
  | _ n ih =>
    rw [itoa]
    split
    · rename_i h
      simp only [decimal, List.foldl_cons, List.foldl_nil, Fin.ofNat]
      omega
    · rename_i h
      have := ih (n / 10) (by omega)
      simp only [decimal, List.foldl_append, List.foldl_cons, List.foldl_nil, Fin.ofNat] at this ⊢
      rw [this]
      omega

theorem dbPath_inj {folder : Str} {i j : Nat} (h : dbPath folder i = dbPath folder j) : i = j := by
  unfold dbPath at h
  have h := List.append_cancel_left (List.append_cancel_left h)
  rw [← decimal_itoa i, h, decimal_itoa]

theorem openStore_eq (reg : GoMap Backend) (env engine : Str) :
    openStore reg env [engine] = reg.get (askedEngine engine env) := by
  unfold openStore askedEngine
  simp only

/-- Opening all shards. -/
theorem openShards_some {reg : GoMap Backend} {env folder engine : Str} {opens : Backend → Str → Bool} {n : Nat}
    {l : List (Str × Backend)} (hn : 1 ≤ n) :
    openShards reg env opens folder engine n = some l ↔
      ∃ b, reg.get (askedEngine engine env) = some b ∧ (∀ i < n, opens b (dbPath folder i) = true) ∧
        l = (List.range n).map (fun i => (dbPath folder i, b)) := by
  unfold openShards
  simp only [openStore_eq]
  cases hb : reg.get (askedEngine engine env) with
  | none =>
    obtain ⟨m, rfl⟩ := Nat.exists_eq_add_of_le' hn
    rw [List.range_succ_eq_map]
    simp
  | some b =>
    simp only [Option.bind_eq_bind, Option.bind_some, Option.some.injEq, exists_eq_left']
    induction n generalizing l with
    | zero => omega
    | succ m ih =>
      rw [List.range_succ, List.mapM_append, List.map_append]
      by_cases hm : m = 0
      · subst hm
        by_cases ho : opens b (dbPath folder 0) = true
        · simp [ho]
          exact eq_comm
        · simp [ho]
      · by_cases hall : ∀ i < m, opens b (dbPath folder i) = true
        · rw [(ih (by omega)).2 ⟨hall, rfl⟩]
          by_cases ho : opens b (dbPath folder m) = true
          · have : ∀ i < m + 1, opens b (dbPath folder i) = true := by
              intro i hi
              rcases Nat.lt_succ_iff_lt_or_eq.1 hi with h | rfl
              · exact hall i h
              · exact ho
            rw [and_iff_right this]
            simp [ho]
            exact eq_comm
          · simp [ho]
            intro h
            exact absurd (h m (by omega)) ho
        · have hnone : (List.range m).mapM (fun shard => if opens b (dbPath folder shard) = true then
              some (dbPath folder shard, b) else none) = none := by
            cases hx : (List.range m).mapM (fun shard => if opens b (dbPath folder shard) = true then
              some (dbPath folder shard, b) else none) with
            | none => rfl
            | some x => exact absurd ((ih (by omega)).1 hx).1 hall
          rw [hnone]
          simp
          intro h
          exact absurd (fun i hi => h i (by omega)) hall

/-- What the options look like when the store is opened. -/
theorem ready_store (cpu : Nat) (loaded : Bool) (usedMem : Str) (o : EngineOpts F) (hu : o.useStore = true) :
    (((o.initDef loaded).init cpu).checkMem usedMem).useStore = true ∧
    (((o.initDef loaded).init cpu).checkMem usedMem).storeEngine = o.storeEngine ∧
    (((o.initDef loaded).init cpu).checkMem usedMem).storeShards = (if o.storeShards = 0 then 8 else o.storeShards) ∧
    (((o.initDef loaded).init cpu).checkMem usedMem).storeFolder =
      (if o.storeFolder = [] then str "./riot-index" else o.storeFolder) := by
  obtain ⟨d1, d2, d3, d4, d5, d6, d7, d8, d9, d10, d11, d12⟩ := initDef_fields loaded o
  have h : ((o.initDef loaded).init cpu).useStore = true := d8.trans hu
  have e : ((o.initDef loaded).init cpu).checkMem usedMem = (o.initDef loaded).init cpu := by
    unfold EngineOpts.checkMem; rw [if_pos h]
  rw [e]
  refine ⟨h, ?_, ?_, ?_⟩
  · show (o.initDef loaded).storeEngine = _
    unfold EngineOpts.initDef; simp only; (repeat' split) <;> rfl
  · show (if (o.initDef loaded).storeShards = 0 then 8 else (o.initDef loaded).storeShards) = _
    rw [d7]
  · show (o.initDef loaded).storeFolder = _
    unfold EngineOpts.initDef
    simp only
    split <;> simp only [hu, true_and] <;> split <;> simp_all

/-- **C85** An engine with a store, with options that are not negative, whatever was registered and whatever the
environment says. The engine starts only if the name the user asked for (the option, else the environment, else
"ldb") stands for a library and the library can open all files, both times. Then the same library is used for all
shards, for reading the documents back and for storing new ones; there is one file for every
store shard, in the folder of the options; no two shards share a file; a file depends only on the folder and the number of the shard. -/
theorem C85_store_backend {cpu : Nat} (hcpu : 1 ≤ cpu) (clients : Nat) (loaded : Bool) (usedMem : Str) {o : EngineOpts F}
    (ho : o.Legal) (hu : o.useStore = true) (calls : List (Str × Backend)) (env : Str) (mkdir : Str → Bool)
    (opens reopens : Backend → Str → Bool) {folder : Str}
    (hf : folder = if o.storeFolder = [] then str "./riot-index" else o.storeFolder) :
    (∀ dbs, o.databases cpu clients loaded usedMem (registerStores calls) env mkdir opens reopens = some dbs →
      ∃ b l, StandsFor calls (askedEngine o.storeEngine env) b ∧ dbs = some (l, l) ∧
        l.length = orDefault o.storeShards 8 ∧ (l.map (·.1)).Nodup ∧
        ∀ i (hi : i < l.length), l[i] = (dbPath folder i, b) ∧ opens b (dbPath folder i) = true ∧
          reopens b (dbPath folder i) = true) ∧
    (∀ b, StandsFor calls (askedEngine o.storeEngine env) b → mkdir folder = true →
      (∀ i < orDefault o.storeShards 8, opens b (dbPath folder i) = true ∧ reopens b (dbPath folder i) = true) →
      ∃ dbs, o.databases cpu clients loaded usedMem (registerStores calls) env mkdir opens reopens = some dbs) := by
  obtain ⟨res, hres, -⟩ := C65_options (clients := clients) hcpu loaded usedMem ho
  obtain ⟨u1, u2, u3, u4⟩ := ready_store cpu loaded usedMem o hu
  rw [← hf] at u4
  unfold EngineOpts.engine at hres
  have hn : (if o.storeShards = 0 then 8 else o.storeShards).toNat = orDefault o.storeShards 8 := by
    unfold orDefault; split <;> rfl
  have hpos := orDefault_pos (d := 8) ho.stores (by omega)
  have key : ∀ dbs, o.databases cpu clients loaded usedMem (registerStores calls) env mkdir opens reopens = some dbs ↔
      ∃ first second, dbs = some (first, second) ∧ mkdir folder = true ∧
        openShards (registerStores calls) env opens folder o.storeEngine (orDefault o.storeShards 8) = some first ∧
        openShards (registerStores calls) env reopens folder o.storeEngine (orDefault o.storeShards 8) = some second := by
    intro dbs
    unfold EngineOpts.databases EngineOpts.openStores
    simp only [hres, u1, u2, u3, u4, hn, Option.bind_eq_bind, Option.bind_some, if_true, Option.pure_def,
      Option.bind_eq_some_iff, Option.some.injEq]
    by_cases hm : mkdir folder = true
    · simp only [hm, if_true, Option.bind_eq_some_iff, Option.some.injEq]
      constructor
      · rintro ⟨p, ⟨a, ha, b, hb, rfl⟩, rfl⟩
        exact ⟨a, b, rfl, trivial, ha, hb⟩
      · rintro ⟨a, b, rfl, -, ha, hb⟩
        exact ⟨(a, b), ⟨a, ha, b, hb, rfl⟩, rfl⟩
    · simp [hm]
  constructor
  · intro dbs h
    obtain ⟨first, second, rfl, hm, h1, h2⟩ := (key dbs).1 h
    obtain ⟨b, hb, ho1, rfl⟩ := (openShards_some hpos).1 h1
    obtain ⟨b', hb', ho2, rfl⟩ := (openShards_some hpos).1 h2
    rw [hb] at hb'
    cases hb'
    refine ⟨b, _, (register_get _ _ _).1 hb, rfl, by simp, ?_, ?_⟩
    · rw [List.map_map]
      exact List.Nodup.map (fun i j h => dbPath_inj h) List.nodup_range
    · intro i hi
      simp only [List.length_map, List.length_range] at hi
      exact ⟨by simp, ho1 i hi, ho2 i hi⟩
  · intro b hb hm hopen
    have hb' := (register_get _ _ _).2 hb
    exact ⟨_, (key _).2 ⟨_, _, rfl, hm, (openShards_some hpos).2 ⟨b, hb', fun i hi => (hopen i hi).1, rfl⟩,
      (openShards_some hpos).2 ⟨b, hb', fun i hi => (hopen i hi).2, rfl⟩⟩⟩

/-- The files of two folder options, or of two shards. -/
theorem C85_files_distinct (folder : Str) (i j : Nat) : dbPath folder i = dbPath folder j ↔ i = j :=
  ⟨dbPath_inj, fun h => by rw [h]⟩

/-- The number a string of digits stands for. -/
def digitsValue (l : Str) : Nat := l.foldl (fun n c => 10 * n + (c.val - 48)) 0

/-- **C85** The name of a store shard's file is the folder, `/riot.` and the number of the shard in decimal
digits without leading zeros: the same file for every engine of every start. -/
theorem C85_file_names (folder : Str) (i : Nat) : ∃ digits : Str, dbPath folder i = folder ++ str "/riot." ++ digits ∧
    (∀ c ∈ digits, 48 ≤ c.val ∧ c.val ≤ 57) ∧ digitsValue digits = i ∧
    (digits.length = 1 ∨ ∃ c rest, digits = c :: rest ∧ 48 < c.val) := by
  refine ⟨itoa i, ?_, ?_⟩
  · unfold dbPath
    have : str "/riot." = str "/" ++ (str "riot" ++ str ".") := by decide +kernel
    rw [this]; simp
  · have hv : ∀ n < 10, (Fin.ofNat 256 (48 + n)).val = 48 + n := by
      intro n hn; simp only [Fin.ofNat]; omega
    have : (∀ c ∈ itoa i, 48 ≤ c.val ∧ c.val ≤ 57) ∧ digitsValue (itoa i) = i ∧
        ((itoa i).length = 1 ∨ ∃ c rest, itoa i = c :: rest ∧ 48 < c.val) ∧
        (i ≠ 0 → ∃ c rest, itoa i = c :: rest ∧ 48 < c.val) := by
      induction i using itoa.induct with
      | case1 n h =>
        rw [itoa, if_pos h]
        refine ⟨?_, ?_, .inl rfl, fun h0 => ⟨_, [], rfl, by rw [hv n h]; omega⟩⟩
        · intro c hc
          rw [List.mem_singleton] at hc
          subst hc; rw [hv n h]; omega
        · simp only [digitsValue, List.foldl_cons, List.foldl_nil, hv n h]; omega
      | case2 n h ih =>
        obtain ⟨a, b, -, d⟩ := ih
        rw [itoa, if_neg h]
        obtain ⟨c, rest, e, hc⟩ := d (by omega)
        have hx : ∃ c' rest', itoa (n / 10) ++ [Fin.ofNat 256 (48 + n % 10)] = c' :: rest' ∧ 48 < c'.val :=
          ⟨c, rest ++ [Fin.ofNat 256 (48 + n % 10)], by rw [e]; rfl, hc⟩
        refine ⟨?_, ?_, .inr hx, fun _ => hx⟩
        · intro x hm
          rw [List.mem_append, List.mem_singleton] at hm
          rcases hm with hm | rfl
          · exact a x hm
          · rw [hv _ (by omega)]; omega
        · unfold digitsValue at b ⊢
          rw [List.foldl_append, b]
          simp only [List.foldl_cons, List.foldl_nil, hv _ (show n % 10 < 10 by omega)]
          omega
    exact ⟨this.1, this.2.1, this.2.2.1⟩

/-- A registered library and two shards in the default folder. -/
example : (({ useStore := true, storeShards := 2, storeEngine := str "kv" } : EngineOpts Nat).databases 4 1 false []
    (registerStores [(str "kv", .user 7)]) (str "bolt") (fun _ => true) (fun _ _ => true) (fun _ _ => true)) =
    some (some ([(str "./riot-index/riot.0", .user 7), (str "./riot-index/riot.1", .user 7)],
      [(str "./riot-index/riot.0", .user 7), (str "./riot-index/riot.1", .user 7)])) := by decide +kernel

/-- An unknown name. -/
example : (({ useStore := true, storeEngine := str "bad" } : EngineOpts Nat).databases 4 1 false []
    (registerStores []) [] (fun _ => true) (fun _ _ => true) (fun _ _ => true)) = none := by decide +kernel

/-- **C85** (a warning: the files do not remember their library) An engine that leaves the choice of the library open uses,
with the same options and the same folder, another library after the environment variable has changed: the same files are
opened as databases of another format. -/
theorem C85_environment_changes_library :
    ∃ (o : EngineOpts Nat) (l l' : List (Str × Backend)),
      o.databases 4 1 false [] (registerStores []) [] (fun _ => true) (fun _ _ => true) (fun _ _ => true) =
        some (some (l, l)) ∧
      o.databases 4 1 false [] (registerStores []) (str "bolt") (fun _ => true) (fun _ _ => true) (fun _ _ => true) =
        some (some (l', l')) ∧
      l.map (·.1) = l'.map (·.1) ∧ l.map (·.2) = [.leveldb] ∧ l'.map (·.2) = [.bolt] :=
  ⟨{ useStore := true, storeShards := 1 }, [(str "./riot-index/riot.0", .leveldb)],
    [(str "./riot-index/riot.0", .bolt)], by decide +kernel, by decide +kernel, rfl, rfl, rfl⟩

/-! ## C86 -/

/-- **C86** (partial: the machine's memory is not used up to 99.99 % when the engine is made) An engine
without the option `UseStore` opens no database, whatever the other options. Missing: see `C86_refuted_memory`. -/
theorem C86_no_store_partial {cpu : Nat} (hcpu : 1 ≤ cpu) (clients : Nat) (loaded : Bool) {usedMem : Str}
    (hmem : usedMem ≠ str "99.99") {o : EngineOpts F} (ho : o.Legal) (hu : o.useStore = false)
    (reg : GoMap Backend) (env : Str) (mkdir : Str → Bool) (opens reopens : Backend → Str → Bool) :
    o.databases cpu clients loaded usedMem reg env mkdir opens reopens = some none ∧
    ∃ res, o.engine cpu clients loaded usedMem = some res ∧ res.size.useStore = false ∧ res.size.stores = 0 ∧
      res.folder = none := by
  obtain ⟨res, hres, -⟩ := C65_options (clients := clients) hcpu loaded usedMem ho
  obtain ⟨d1, d2, d3, d4, d5, d6, d7, d8, d9, d10, d11, d12⟩ := initDef_fields loaded o
  have h : ((o.initDef loaded).init cpu).useStore = false := d8.trans hu
  have e : ((o.initDef loaded).init cpu).checkMem usedMem = (o.initDef loaded).init cpu := by
    unfold EngineOpts.checkMem; rw [if_neg (by simp [h]), if_neg hmem]
  have hres' := hres
  unfold EngineOpts.engine at hres
  constructor
  · unfold EngineOpts.databases
    simp only [hres, Option.bind_eq_bind, Option.bind_some]
    rw [e, h]
    rfl
  · refine ⟨res, hres', ?_⟩
    rw [e] at hres
    unfold EngineOpts.resources at hres
    simp only [h, Bool.false_eq_true, if_false, bind, Option.bind_eq_some_iff, pure, Option.some.injEq] at hres
    obtain ⟨_, _, _, _, _, _, _, _, _, _, _, _, st, hst, rfl⟩ := hres
    simp only [goMake, lt_irrefl, if_false, Option.some.injEq] at hst
    exact ⟨rfl, hst.symm, rfl⟩

/-- **C86 is refuted** If 99.99 % of the machine's memory is in use when the engine is made, an engine without
`UseStore` opens the databases in "./riot-index" all the same, so that it starts with the documents another program left there and
keeps the new ones there. -/
theorem C86_refuted_memory {cpu : Nat} (hcpu : 1 ≤ cpu) (clients : Nat) (loaded : Bool)
    {o : EngineOpts F} (ho : o.Legal) (hu : o.useStore = false) (heng : o.storeEngine = []) :
    ∃ l, o.databases cpu clients loaded (str "99.99") (registerStores []) [] (fun _ => true) (fun _ _ => true)
        (fun _ _ => true) = some (some (l, l)) ∧ l.length = orDefault o.storeShards 8 ∧
      ∀ i (hi : i < l.length), l[i] = (dbPath (str "./riot-index") i, .leveldb) := by
  obtain ⟨res, hres, -⟩ := C65_options (clients := clients) hcpu loaded (str "99.99") ho
  obtain ⟨d1, d2, d3, d4, d5, d6, d7, d8, d9, d10, d11, d12⟩ := initDef_fields loaded o
  have h : ((o.initDef loaded).init cpu).useStore = false := d8.trans hu
  have e : ((o.initDef loaded).init cpu).checkMem (str "99.99") =
      { (o.initDef loaded).init cpu with useStore := true, storeFolder := str "./riot-index" } := by
    unfold EngineOpts.checkMem; rw [if_neg (by simp [h]), if_pos rfl]
  unfold EngineOpts.engine at hres
  have hpos := orDefault_pos (d := 8) ho.stores (by omega)
  have hsh : ((o.initDef loaded).init cpu).storeShards.toNat = orDefault o.storeShards 8 := by
    show (if (o.initDef loaded).storeShards = 0 then (8 : Int) else (o.initDef loaded).storeShards).toNat = _
    rw [d7]; unfold orDefault; split <;> rfl
  have hen : ((o.initDef loaded).init cpu).storeEngine = [] := by
    rw [← heng]
    show (o.initDef loaded).storeEngine = _
    unfold EngineOpts.initDef; simp only; (repeat' split) <;> rfl
  have hop := (openShards_some (reg := registerStores []) (env := []) (folder := str "./riot-index") (engine := [])
    (opens := fun _ _ => true) (l := (List.range (orDefault o.storeShards 8)).map
      (fun i => (dbPath (str "./riot-index") i, Backend.leveldb))) hpos).2
    ⟨.leveldb, (register_get _ _ _).2 (Or.inr ⟨by simp, .ldb⟩), by simp, rfl⟩
  refine ⟨(List.range (orDefault o.storeShards 8)).map (fun i => (dbPath (str "./riot-index") i, Backend.leveldb)),
    ?_, ?_, ?_⟩
  · unfold EngineOpts.databases
    simp only [hres, Option.bind_eq_bind, Option.bind_some]
    rw [e]
    unfold EngineOpts.openStores
    simp only [hsh, hen, hop, if_true, bind, Option.bind_some, pure]
  · simp
  · intro i hi; simp

/-- An engine for the memory only. -/
example : (({} : EngineOpts Nat).databases 4 1 false (str "63.20") (registerStores []) [] (fun _ => true)
    (fun _ _ => true) (fun _ _ => true)) = some none := by decide +kernel

/-! ## C87 -/

namespace Net

/-- **C87** (partial: the settings the engine has) The engine of a server has the configured number of shards and
databases (10 if not configured), the configured store library, folder ("./riot-index"), dictionary
("../dict/dictionary.txt"), stop token file and segmentation mode; it uses a segmenter and a store, and shows whole documents.
Missing: the setting `gse_mode` (`C87_refuted_gse_mode`) and an order of the results (`C87_refuted_order`). -/
theorem C87_server_settings_partial {cpu clients : Nat} (hcpu : 1 ≤ cpu) (usedMem : Str) (conf : EngineConf)
    (h1 : 0 ≤ conf.numShards) (h2 : 0 ≤ conf.storeShards) :
    (∃ res, (comEngineOpts (F := F) conf).engine cpu clients false usedMem = some res ∧ res.size.Ok ∧
      res.size.shards = orDefault conf.numShards 10 ∧ res.size.stores = orDefault conf.storeShards 10 ∧
      res.size.useStore = true ∧
      res.folder = some (if conf.storeFolder = [] then str "./riot-index" else conf.storeFolder) ∧
      res.dict = some (if conf.gseDict = [] then str "../dict/dictionary.txt" else conf.gseDict) ∧
      res.stopFile = some conf.stopTokenFile ∧ res.search.using_ = conf.using_ ∧ res.search.notUseGse = false ∧
      res.search.idOnly = false) ∧
    ∀ (calls : List (Str × Backend)) (env : Str) (mkdir : Str → Bool) (opens reopens : Backend → Str → Bool) dbs,
      (comEngineOpts (F := F) conf).databases cpu clients false usedMem (registerStores calls) env mkdir opens reopens = some dbs →
      ∃ b l, StandsFor calls (askedEngine conf.storeEngine env) b ∧ dbs = some (l, l) ∧
        l.length = orDefault conf.storeShards 10 ∧ ∀ i (hi : i < l.length),
          l[i] = (dbPath (if conf.storeFolder = [] then str "./riot-index" else conf.storeFolder) i, b) := by
  have s1 : (comEngineOpts (F := F) conf).numShards = if conf.numShards ≠ 0 then conf.numShards else 10 := rfl
  have s2 : (comEngineOpts (F := F) conf).storeShards = if conf.storeShards ≠ 0 then conf.storeShards else 10 := rfl
  have hl : (comEngineOpts (F := F) conf).Legal := by
    refine ⟨le_refl _, ?_, le_refl _, le_refl _, le_refl _, le_refl _, ?_⟩
    · rw [s1]; split <;> omega
    · rw [s2]; split <;> omega
  have e1 : orDefault (comEngineOpts (F := F) conf).numShards 8 = orDefault conf.numShards 10 := by
    rw [s1]; unfold orDefault; by_cases h : conf.numShards = 0 <;> simp [h]
  have e2 : orDefault (comEngineOpts (F := F) conf).storeShards 8 = orDefault conf.storeShards 10 := by
    rw [s2]; unfold orDefault; by_cases h : conf.storeShards = 0 <;> simp [h]
  have hne : str "./riot-index" ≠ [] := by decide +kernel
  have hne2 : str "../dict/dictionary.txt" ≠ [] := by decide +kernel
  have e3 : (if (comEngineOpts (F := F) conf).storeFolder = [] then str "./riot-index"
      else (comEngineOpts (F := F) conf).storeFolder) =
      (if conf.storeFolder = [] then str "./riot-index" else conf.storeFolder) := by
    have : (comEngineOpts (F := F) conf).storeFolder = if conf.storeFolder ≠ [] then conf.storeFolder else
      if conf.storeFolder ≠ [] then conf.storeFolder else str "./riot-index" := rfl
    rw [this]
    by_cases h : conf.storeFolder = [] <;> simp [h, hne]
  have e4 : (if (comEngineOpts (F := F) conf).gseDict = [] then str "zh" else (comEngineOpts (F := F) conf).gseDict) =
      (if conf.gseDict = [] then str "../dict/dictionary.txt" else conf.gseDict) := by
    have : (comEngineOpts (F := F) conf).gseDict =
      if conf.gseDict ≠ [] then conf.gseDict else str "../dict/dictionary.txt" := rfl
    rw [this]
    by_cases h : conf.gseDict = [] <;> simp [h, hne2]
  constructor
  · obtain ⟨res, hres, g⟩ := C65_options (clients := clients) hcpu false usedMem hl
    obtain ⟨g1, _, _, _, _, g6, _, _, _, g10, _, _, _, _, _, _, _, _, _, g20, g21, g22⟩ := g
    obtain ⟨k1, k2, k3⟩ := g10 rfl
    obtain ⟨k4, k5⟩ := g22 rfl
    refine ⟨res, hres, g1, g6.trans e1, k1.trans e2, k2, k3.trans (by rw [e3]), (k5 rfl).trans (by rw [e4]), k4, ?_, ?_, g20⟩
    · rw [g21]; rfl
    · rw [g21]; rfl
  · intro calls env mkdir opens reopens dbs hd
    obtain ⟨b, l, f1, f2, f3, f4, f5⟩ := (C85_store_backend hcpu clients false usedMem hl rfl calls env mkdir opens reopens e3.symm).1 dbs hd
    exact ⟨b, l, f1, f2, f3.trans e2, fun i hi => (f5 i hi).1⟩

/-- **C87 is refuted** The setting `gse_mode` has no effect: whatever it is, the engine cuts texts as without it. -/
theorem C87_refuted_gse_mode (conf : EngineConf) (mode : Str) :
    comEngineOpts (F := F) { conf with gseMode := mode } = comEngineOpts conf ∧
    (comEngineOpts (F := F) conf).gseMode = false :=
  ⟨rfl, rfl⟩

/-- **C87 is refuted** The results of a server's searches are in no particular order: whatever was indexed and
whatever is searched, every document found has the same score. (With the limit, the engine therefore cuts an arbitrary part of
the found documents; the server then sorts that part by time.) -/
theorem C87_refuted_order {cpu clients : Nat} (hcpu : 1 ≤ cpu) (usedMem : Str) (conf : EngineConf)
    (h1 : 0 ≤ conf.numShards) (h2 : 0 ≤ conf.storeShards) :
    ∃ res, (comEngineOpts (F := F) conf).engine cpu clients false usedMem = some res ∧
      ∀ (so : Sorter) (_ : SortOk so) (h : List IdxOp) (_ : ∀ x ∈ h, OpOk x) (s : Indexer),
        (Indexer.init res.index).run so h = some s →
        ∀ log2 tokens labels docIds co logic docs n, s.lookup log2 tokens labels docIds co logic = some (docs, n) →
        ∀ x ∈ docs, ∀ query offset max ids lg (f : Option F),
            (wantedRank res.search (comReq query offset max ids lg)).score x f = [.fin 0] := by
  simp only [← rankOpts_eq] at *
  have s1 : (comEngineOpts (F := F) conf).numShards = if conf.numShards ≠ 0 then conf.numShards else 10 := rfl
  have s2 : (comEngineOpts (F := F) conf).storeShards = if conf.storeShards ≠ 0 then conf.storeShards else 10 := rfl
  have hl : (comEngineOpts (F := F) conf).Legal := by
    refine ⟨le_refl _, ?_, le_refl _, le_refl _, le_refl _, le_refl _, ?_⟩
    · rw [s1]; split <;> omega
    · rw [s2]; split <;> omega
  obtain ⟨res, hres, g⟩ := C65_options (clients := clients) hcpu false usedMem hl
  obtain ⟨_, _, _, _, _, _, _, _, _, _, _, _, e1, _, _, e3, _⟩ := g
  refine ⟨res, hres, ?_⟩
  intro so hso h hok s hr log2 tokens labels docIds co logic docs n hlk x hx query offset max ids lg f
  rw [rankOpts_default (fun o ho => by cases ho; rfl), e3]
  show [F32.fin x.bm25] = _
  rw [docIds_bm25_zero hso e1 hok hr hlk x hx]

/-- A configured server. -/
example : ((comEngineOpts (F := Nat) { storeEngine := str "bg", numShards := 3, storeShards := 1, gseMode := str "search" }).databases
    4 1 false (str "99.99") (registerStores []) [] (fun _ => true) (fun _ _ => true) (fun _ _ => true)) =
    some (some ([(str "./riot-index/riot.0", .badger)], [(str "./riot-index/riot.0", .badger)])) := by decide +kernel

end Net

end Riot
