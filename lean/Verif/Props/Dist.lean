import Verif.Props.Never

/-!
# C94: a distributed search over several flushed servers

Each server is an engine with its own options, shards, histories and schedule. The front end (net/http/dist.go:53-114
`WgDist`, net/grpc/search.go:131-178 `wgGrpc`) sends the request with resolved offset and limit to all of them, collects
the answers and merges them.
-/

namespace Riot

variable {F : Type}

/-- A server: an engine, its schedule up to now, and the search made in it for the request (number `k`, begun at
moment `b`). -/
structure Net.Server (F : Type) where
  c : PipeCfg (Net.DocData F)
  E : EngCfg (Net.DocData F) F Net.AttriVal
  o : IndexerOpts
  db : Fin c.stores → List (Str × Net.DocData F)
  as : List (EAct c.toPipeSize (Net.DocData F) F)
  st : Full c F Net.AttriVal
  conf : Net.Conf
  k : Nat
  b : Nat

namespace Net.Server

/-- The engine when the request arrives. -/
def asked (v : Net.Server F) : Full v.c F Net.AttriVal := Full.after v.E (Full.start v.c v.o v.db) v.as v.b

/-- What was given to the engine before the request. -/
def given (v : Net.Server F) : List (Call (Net.DocData F)) := v.asked.fine.pipe.given v.db

/-- The words of the query, as the server splits it. -/
def words (v : Net.Server F) (query : Str) (m : Nat) : List Str :=
  Engine.tokens v.E.text v.E.opts (Net.comReq (F := F) query (0 : Nat) m none {})

/-- The engine makes index documents from texts, sorts, and keeps content and attributes. -/
structure Set (v : Net.Server F) : Prop where
  text : FromTexts v.c v.E (·.text)
  so : SortOk v.E.so
  gs : GSortOk v.E.gs
  id : v.E.opts.idOnly = false
  info : ∀ x, v.E.info.attri x = x.attri
  score : ∀ d f, v.E.opts.defRankOpts.score d f ≠ [] ∧ NoNaN (v.E.opts.defRankOpts.score d f)
  start : GentleStart v.c v.o v.db

/-- The history of the server: used gently; the calls about a document separated by Flushes, none indexed again after its
removal; documents carry a `types.Attri`; all work was done when the request arrived; no calls during the search, which
returned without a time-out. -/
structure Flushed (v : Net.Server F) (query : Str) (m : Nat) : Prop where
  run : (Full.start v.c v.o v.db).run v.E v.as = some v.st
  gentle : (Full.start v.c v.o v.db).Gentle v.E v.o v.db v.as
  began : Began v.as v.k v.b (Net.comReq query (0 : Nat) m none {})
  returned : v.st.Returned v.k
  inTime : ∀ resp, v.st.response v.E v.k = some resp → resp.timeout = false
  quiet : v.asked.fine.pipe.Quiet
  rounds : ∀ d, d ≠ str "0" → ∃ l, Rounds v.db d v.asked.fine.pipe l
  once : ∀ d f x g l1 l2, v.given = l1 ++ Call.remove d f :: l2 → Call.index d x g ∉ l2
  attri : ∀ d x g, Call.index d x g ∈ v.given → ∃ time ts, x.attri = some (.attri time ts)
  calm : ∀ t i (a : Call (Net.DocData F)), v.b ≤ t → v.as[t]? ≠ some (.pipe (.call i a))
  words : v.o.indexType = .locs → v.words query m ≠ []

/-- The server's answer to the request of the front end. -/
def answer (v : Net.Server F) (query : Str) (m : Nat) : Option (List Net.Text) :=
  Net.serverSearch v.E.gs v.conf (fun _ => v.st.response v.E v.k) query (0 : Nat) m none {}

/-- Document `d` of shard `s` should be found: its last text has all the words of the query. -/
def Matching (v : Net.Server F) (query : Str) (m : Nat) (s : Fin v.c.shards) (d : Str) : Prop :=
  v.words query m ≠ [] ∧ ∃ x, LatestOn v.c s v.given d x ∧
    ∀ w ∈ v.words query m, TextHasKey v.E.text v.E.opts.toTextOpts x.text w

/-- `found s` lists, for every shard, the entries of exactly the documents that should be found. -/
def Finds (v : Net.Server F) (query : Str) (m : Nat) (found : Fin v.c.shards → List (ScoredDoc F Net.AttriVal)) : Prop :=
  ∀ s, ((found s).map (·.scoredID.docId)).Nodup ∧ str "0" ∉ (found s).map (·.scoredID.docId) ∧
    (∀ d, d ≠ str "0" → (d ∈ (found s).map (·.scoredID.docId) ↔ v.Matching query m s d)) ∧
    ∀ e ∈ found s, ShowsVersion v.c v.E v.given s e

/-- All entries of a server, shard after shard. -/
def entries (v : Net.Server F) (found : Fin v.c.shards → List (ScoredDoc F Net.AttriVal)) :
    List (ScoredDoc F Net.AttriVal) := (List.finRange v.c.shards).flatMap found

end Net.Server

theorem lists_by_shard {n : Nat} {α : Type} : ∀ (lists : List (Fin n × List α)), (lists.map (·.1)).Nodup →
    (∀ s, s ∈ lists.map (·.1)) → ∃ f : Fin n → List α, (∀ p ∈ lists, f p.1 = p.2) ∧
      ((List.finRange n).flatMap f).Perm (lists.flatMap (·.2)) := by
  intro lists hn hall
  let f : Fin n → List α := fun s => ((lists.find? (fun p => p.1 = s)).map (·.2)).getD []
  have hf : ∀ p ∈ lists, f p.1 = p.2 := by
    intro p hp
    obtain ⟨q, hq⟩ : ∃ q, lists.find? (fun x => x.1 = p.1) = some q := by
      cases h : lists.find? (fun x => x.1 = p.1) with
      | some q => exact ⟨q, rfl⟩
      | none => exact absurd (decide_eq_true rfl) (List.find?_eq_none.1 h p hp)
    have h1 := List.find?_some hq
    have h2 := List.mem_of_find?_eq_some hq
    have : q = p := List.inj_on_of_nodup_map hn h2 hp (by simpa using h1)
    show (((lists.find? (fun x => x.1 = p.1)).map (·.2)).getD []) = p.2
    rw [hq, this]; rfl
  refine ⟨f, hf, ?_⟩
  have hp : (List.finRange n).Perm (lists.map (·.1)) :=
    (List.perm_ext_iff_of_nodup (List.nodup_finRange n) hn).2 (fun s => ⟨fun _ => hall s, fun _ => List.mem_finRange s⟩)
  have h2 : lists.flatMap (·.2) = (lists.map (·.1)).flatMap f := by
    rw [List.flatMap_map]
    simp only [List.flatMap_def]
    congr 1
    apply List.map_congr_left
    intro p hp
    exact (hf p hp).symm
  rw [h2]
  exact hp.flatMap_right f

/-- One server: all matching documents if the limit admits them. -/
theorem server_finds {v : Net.Server F} {query : Str} {m : Nat} (hs : v.Set) (h : v.Flushed query m) (hm : 1 ≤ m) :
    ∃ (out : List Net.Text) (found : Fin v.c.shards → List (ScoredDoc F Net.AttriVal)),
      v.answer query m = some out ∧ v.Finds query m found ∧ Net.NewestFirst out ∧ out.length ≤ m ∧
      ((v.entries found).length ≤ m → ∃ texts, List.Forall₂ Net.Shows (v.entries found) texts ∧ out.Perm texts) := by
  have hask : Net.Asks v.conf ((0 : Nat) : Int) m 0 m := .inl ⟨by omega, rfl, rfl⟩
  obtain ⟨lists, resp, out, R, texts, g1, g2, g3, g4, g5, g6, g7, g8, g9, g10⟩ :=
    C89_flushed_server_shows_page_partial hs.text hs.so hs.gs hs.id hs.info hs.start h.run h.gentle hask hm h.began h.returned
      h.quiet h.rounds h.once h.attri h.calm h.words hs.score (fun _ => v.st.response v.E v.k) rfl
  obtain ⟨f, hf, hperm⟩ := lists_by_shard lists g1 (g3 (h.inTime resp g2))
  have hlen : out.length ≤ m := by
    rw [g8.length_eq, ← g7.length_eq]
    unfold page
    rw [if_neg (by omega)]
    simp
  refine ⟨out, f, g4, ?_, g9, hlen, ?_⟩
  · intro s
    obtain ⟨p, hp, rfl⟩ := List.mem_map.1 (g3 (h.inTime resp g2) s)
    rw [hf p hp]
    obtain ⟨q1, q2, q3, q4⟩ := g10 p hp
    refine ⟨q1, q2, fun d h0 => ?_, q4⟩
    rw [q3 d h0]
    exact ⟨fun ⟨a, _, b⟩ => ⟨a, b⟩, fun ⟨a, b⟩ => ⟨a, fun ids hids => (by cases hids), b⟩⟩
  · intro hl
    have hRl : R.length ≤ m := by
      rw [g5.length_eq, ← hperm.length_eq]; exact hl
    have hpg : page 0 m R = R := by
      unfold page
      rw [if_neg (by omega)]
      simp [List.take_of_length_le hRl]
    rw [hpg] at g7
    have hRe : R.Perm (v.entries f) := g5.trans hperm.symm
    obtain ⟨texts', t1, t2⟩ := (List.perm_comp_forall₂ hRe.symm g7)
    exact ⟨texts', t1, g8.trans t2.symm⟩

theorem forall2_flatten {v : List (Net.Server F)} {ent : Net.Server F → List (ScoredDoc F Net.AttriVal)}
    {texts : Net.Server F → List Net.Text} (h : ∀ x ∈ v, List.Forall₂ Net.Shows (ent x) (texts x)) :
    List.Forall₂ Net.Shows (v.flatMap ent) (v.flatMap texts) := by
  induction v with
  | nil => exact .nil
  | cons a v ih =>
    simp only [List.flatMap_cons]
    exact List.rel_append (h a (by simp)) (ih (fun x hx => h x (by simp [hx])))

/-- **C94 (partial: servers that were flushed after their last change, no offset, appends of answers that do not
overlap)** A distributed search. Whatever the servers (their number, options, shards, stores, histories and
schedules), every server answers, and for every schedule of the collecting goroutines in which no two appends
overlap the front end shows texts newest first, not more than the limit. If all documents that should be found
(per server and shard exactly those whose last text has all the words of the query) are not more than the limit,
all of them are shown, each as often as there are shards that have it, with the text and the time stamp of a version
given to that shard. Missing: more documents than the limit (`C50_refuted_one_document_short`), an offset
(`C50_refuted_paging`), overlapping appends (`C58_refuted_lost_answer`), several requests at a time
(`C58_refuted_foreign_documents`), servers that are not flushed (`C89_refuted_http_shows_nothing`). -/
theorem C94_distributed_search_exact_partial {gs : GSort} (hgs : GSortOk gs) (conf : Net.Conf)
    (servers : List (Net.Server F)) (query : Str) {offset max : Int} {m : Nat} (hask : Net.Asks conf offset max 0 m)
    (hm : 1 ≤ m) (hset : ∀ v ∈ servers, v.Set) (hfl : ∀ v ∈ servers, v.Flushed query m) :
    ∃ (answers : List (List Net.Text)) (found : (v : Net.Server F) → Fin v.c.shards → List (ScoredDoc F Net.AttriVal)),
      List.Forall₂ (fun v a => v.answer query m = some a) servers answers ∧
      (∀ v ∈ servers, v.Finds query m (found v)) ∧
      ∀ (cs : List Net.CollAct) (s : Net.Coll) (data : List (List Net.Text)), Net.Serial cs →
        Net.Coll.run (fun _ => answers) 1 {} cs = some s → s.reqs 0 = .answered data →
        ∃ out, Net.dist gs conf max data = some out ∧ Net.NewestFirst out ∧ out.length ≤ m ∧
          ((servers.flatMap (fun v => v.entries (found v))).length ≤ m →
            ∃ texts, List.Forall₂ Net.Shows (servers.flatMap (fun v => v.entries (found v))) texts ∧ out.Perm texts) := by
  classical
  have hall : ∀ v : Net.Server F, ∃ (out : List Net.Text) (found : Fin v.c.shards → List (ScoredDoc F Net.AttriVal)),
      v ∈ servers → v.answer query m = some out ∧ v.Finds query m found ∧ Net.NewestFirst out ∧ out.length ≤ m ∧
      ((v.entries found).length ≤ m → ∃ texts, List.Forall₂ Net.Shows (v.entries found) texts ∧ out.Perm texts) := by
    intro v
    by_cases hv : v ∈ servers
    · obtain ⟨out, found, h⟩ := server_finds (hset v hv) (hfl v hv) hm
      exact ⟨out, found, fun _ => h⟩
    · exact ⟨[], fun _ => [], fun h => absurd h hv⟩
  choose ans found hF using hall
  refine ⟨servers.map ans, found, ?_, fun v hv => (hF v hv).2.1, ?_⟩
  · rw [List.forall₂_map_right_iff, List.forall₂_same]
    exact fun v hv => (hF v hv).1
  intro cs s data hser hrun hd
  have hperm := Net.C58_serial_appends_complete (fun _ => servers.map ans) cs s hser hrun data hd
  have hmax : (if max = 0 then conf.maxOutputs else max) = (m : Int) := by
    rcases hask with ⟨h1, h2, h3⟩ | ⟨h1, h2, h3⟩
    · rw [if_neg h1, h3]
    · rw [if_pos h1, h3]
  obtain ⟨out, ho1, ho2, ho3, ho4⟩ := Net.C50_merged_answer_is_bounded hgs m hm data (fun a ha => by
    obtain ⟨v, hv, rfl⟩ := List.mem_map.1 (hperm.mem_iff.1 ha)
    exact ⟨(hF v hv).2.2.2.1, (hF v hv).2.2.1⟩)
  refine ⟨out, ?_, ho3, ho4, ?_⟩
  · unfold Net.dist
    rw [hmax]; exact ho1
  intro hl
  have hle : ∀ v ∈ servers, (v.entries (found v)).length ≤ m := by
    intro v hv
    refine Nat.le_trans ?_ hl
    rw [List.length_flatMap]
    exact List.le_sum_of_mem (List.mem_map.2 ⟨v, hv, rfl⟩)
  have ht : ∀ v : Net.Server F, ∃ texts, v ∈ servers →
      List.Forall₂ Net.Shows (v.entries (found v)) texts ∧ (ans v).Perm texts := by
    intro v
    by_cases hv : v ∈ servers
    · obtain ⟨t, h⟩ := (hF v hv).2.2.2.2 (hle v hv)
      exact ⟨t, fun _ => h⟩
    · exact ⟨[], fun h => absurd h hv⟩
  choose texts hT using ht
  refine ⟨servers.flatMap texts, forall2_flatten (fun v hv => (hT v hv).1), ?_⟩
  have hflat : data.flatten.Perm (servers.flatMap texts) := by
    refine hperm.flatten.trans ?_
    rw [← List.flatMap_def]
    exact List.Perm.flatMap_left _ (fun v hv => (hT v hv).2)
  have hlen : data.flatten.length ≤ m := by
    rw [hflat.length_eq, ← (forall2_flatten (fun v hv => (hT v hv).1)).length_eq]
    exact hl
  by_cases h1 : data.length = 1
  · obtain ⟨a, rfl⟩ := List.length_eq_one_iff.1 h1
    rw [Net.C50_single_answer_unchanged] at ho1
    cases ho1
    simpa using hflat
  · obtain ⟨out', e1, ⟨R, r1, r2, r3⟩, e3⟩ := Net.C50_all_documents_when_they_fit hgs m hm data h1 hlen
    rw [ho1] at e1
    cases e1
    rw [List.take_of_length_le (by rw [r1.length_eq]; exact hlen)] at r3
    subst r3
    exact r1.trans hflat

/-! ## Example: two servers with the same three documents -/

/-- The server of Props/Never, flushed. -/
def webServer (st : Full webEngine Nat Net.AttriVal) (b : Nat) (conf : Net.Conf) : Net.Server Nat where
  c := webEngine
  E := webEng
  o := smallOpts .docIds 10
  db := fun _ => []
  as := webRun2
  st := st
  conf := conf
  k := 0
  b := b

/-- The hypotheses of `C94_distributed_search_exact_partial` hold of two servers; a schedule of the collecting goroutines
without overlap ends, and the front end shows the two matching documents of both servers, newest first. -/
example : ∃ st b, (webServer st b {}).Set ∧ (webServer st b {}).Flushed (str "red house") 5 ∧
    (webServer st b { maxOutputs := 3 }).Set ∧ (webServer st b { maxOutputs := 3 }).Flushed (str "red house") 5 ∧
    Net.Asks {} 0 5 0 5 ∧
    ∃ a1 a2 s data, (webServer st b {}).answer (str "red house") 5 = some a1 ∧
      (webServer st b { maxOutputs := 3 }).answer (str "red house") 5 = some a2 ∧
      Net.Serial [.start 0, .load 0 1, .store 0 1, .load 0 0, .store 0 0, .wake 0, .finish 0] ∧
      Net.Coll.run (fun _ => [a1, a2]) 1 {}
        [.start 0, .load 0 1, .store 0 1, .load 0 0, .store 0 0, .wake 0, .finish 0] = some s ∧
      s.reqs 0 = .answered data ∧
      (Net.dist insGSort {} 5 data).map (fun l => l.map (fun t => (t.id, t.ts))) =
        some [(str "Z", 9), (str "Z", 9), (str "X", 7), (str "X", 7)] := by
  obtain ⟨st, b, h1, h2, h3, h4, h5, h6, h7, h8, h9, h10, h11, h12, h13, -⟩ := web_flushed
  have hset : ∀ conf, (webServer st b conf).Set := fun conf =>
    { text := h1
      so := insSort_ok
      gs := insGSort_ok
      id := rfl
      info := fun _ => rfl
      score := fun d f => ⟨by simp [webServer, webEng], fun hx => by
        simp [webServer, webEng] at hx⟩
      start := h4 }
  have hfl : ∀ conf, (webServer st b conf).Flushed (str "red house") 5 := fun conf =>
    { run := h2
      gentle := h3
      began := h5
      returned := h6
      inTime := h12
      quiet := h7
      rounds := h8
      once := h9
      attri := h11
      calm := h10
      words := fun h => by cases h }
  refine ⟨st, b, hset _, hfl _, hset _, hfl _, .inl ⟨by decide, rfl, rfl⟩, ?_⟩
  have hans : ∀ conf, (webServer st b conf).answer (str "red house") 5 = some webAnswer := fun _ => h13
  refine ⟨webAnswer, webAnswer, _, [webAnswer, webAnswer], hans _, hans _, Net.serialCheck_ok _ (by decide +kernel), rfl, rfl, ?_⟩
  decide +kernel

end Riot
