import Verif.Model.WireNet
import Verif.Props.Wire

/-!
# C114: what is sent over gRPC arrives

C111 for the calls of the service: the handler gets exactly what the client was given, and the client gets exactly what
the handler answered.
-/

namespace Riot.Wire

open Riot Riot.Net

variable {F : Type}

/-- The request as doc.proto defines it, written and read: the handler sees it. -/
theorem rpc_of {A B E : Type} {sent : Option Str} {read : Str → Out A} {handler : A → Out (E × B)} {write : B → Option Str}
    {readBack : Str → Out B} {bs back : Str} {a : A} {e : E} {b b' : B} (h1 : sent = some bs) (h2 : read bs = .ok a)
    (h3 : handler a = .ok (e, b)) (h4 : write b = some back) (h5 : readBack back = .ok b') :
    rpc sent read handler write readBack = .ok (e, b') := by
  subst h1
  simp only [rpc, ofOpt, Out.bind_ok, h2, h3, h4, h5]

theorem rpc_crash {A B E : Type} {sent : Option Str} {read : Str → Out A} {handler : A → Out (E × B)} {write : B → Option Str}
    {readBack : Str → Out B} {bs : Str} {a : A} (h1 : sent = some bs) (h2 : read bs = .ok a) (h3 : handler a = .panic) :
    rpc sent read handler write readBack = .panic := by
  subst h1
  simp only [rpc, ofOpt, h2, h3, Out.bind]

/-- The empty reply of `DocInx` and `Delete`. -/
theorem reply_zero : ∃ back : Str, ({} : Reply).marshal = some back ∧ ({} : Reply).unmarshal back = .ok {} :=
  ⟨[], rfl, rfl⟩

/-- C114 for heart beats: every number comes back. -/
theorem C114_heart_beat (n : BitVec 32) : rpcHeart n = .ok ((), { result := n }) := by
  have hsz : ∀ v : BitVec 32, numSize v < 2 ^ 63 := by
    intro v
    have : ∀ k x, sovLoop k x ≤ k := by
      intro k
      induction k with
      | zero => intro x; simp [sovLoop]
      | succ k ih => intro x; simp only [sovLoop]; have := ih (x / 128); split <;> omega
    have := this 10 (v.signExtend 64).toNat
    unfold numSize sov
    split <;> omega
  obtain ⟨bs, h1, -, -, h2⟩ := C111_HeartReq { msg := n } UnknownFrom.nil (by simpa [HeartReq.size] using hsz n)
  obtain ⟨back, h3, -, -, h4⟩ := C111_Reply { result := n } UnknownFrom.nil (by simpa [Reply.size] using hsz n)
  exact rpc_of h1 h2 rfl h3 h4

/-- C114 for `Delete`: the handler removes the document with the given id. -/
theorem C114_delete (docId : Str) (hs : ({ docId := docId } : DeleteReq).size < 2 ^ 63) :
    (rpcDelete docId : Out (Call (DocData F) × Reply)) = .ok (.remove docId false, {}) := by
  obtain ⟨bs, h1, -, -, h2⟩ := C111_DeleteReq { docId := docId } UnknownFrom.nil hs
  obtain ⟨back, h3, h4⟩ := reply_zero
  exact rpc_of h1 h2 rfl h3 h4

/-- C114 for `DocInx`: the engine is given the id, the content, the tokens and the option of the request, and the time
and the number of the attributes, which the user had marshalled. (The labels and the fields are lost: C80.) -/
theorem C114_document (left : Str → Str × Int) (m : DocReq) (hp : m.Proper) (hs : m.size < 2 ^ 63) (a : AttriMsg)
    (ha : a.Proper) (hsa : a.size < 2 ^ 63) (hm : a.marshal = some m.attri) :
    (rpcDoc left m : Out (Call (DocData F) × Reply)) =
      .ok (.index m.docId
        { text :=
            { content := m.content
              tokens := m.tokens.map fun t => { text := t.text, locations := t.locations.map BitVec.toInt } }
          attri := some (.attri a.time a.ts.toInt) }
        m.forceUpdate, {}) := by
  obtain ⟨bs, h1, -, -, h2⟩ := C111_DocReq m hp hs
  obtain ⟨bs', h3, -, -, h4⟩ := C111_Attri a ha hsa
  rw [hm] at h3
  cases h3
  obtain ⟨back, h5, h6⟩ := reply_zero
  refine rpc_of h1 h2 ?_ h5 h6
  simp only [docHandler, attriRead, h4, Out.bind_ok, addDoc, pbDoc, List.map_map]
  rfl

/-- C114 for the client function `InitGrpcc`: of the document that it is given, the content, the tokens and the attributes
arrive; the engine indexes them under the empty id, without labels and fields, and without a forced update (see C81). -/
theorem C114_client_document (left : Str → Str × Int) (content attri : Str) (tokens : List TokenMsg)
    (ht : ∀ t ∈ tokens, t.Proper) (hs : (clientDocMsg content attri tokens).size < 2 ^ 63) (a : AttriMsg)
    (ha : a.Proper) (hsa : a.size < 2 ^ 63) (hm : a.marshal = some attri) :
    (rpcDoc left (clientDocMsg content attri tokens) : Out (Call (DocData F) × Reply)) =
      .ok (.index []
        { text :=
            { content := content
              tokens := tokens.map fun t => { text := t.text, locations := t.locations.map BitVec.toInt } }
          attri := some (.attri a.time a.ts.toInt) }
        false, {}) :=
  C114_document left (clientDocMsg content attri tokens) ⟨UnknownFrom.nil, ht⟩ hs a ha hsa hm

/-- The map that the client is given and the list of ids that the search of the server is restricted to: the same
documents; an empty map is no restriction. -/
def SameIds (d : Option (GoMap Bool)) (ids : Option (List Str)) : Prop :=
  (ids = none ↔ ∀ k, idAt d k = none) ∧ ∀ l, ids = some l → ∀ k, k ∈ l ↔ idAt d k ≠ none

/-- Request of `InitSearchRpc`, with the ids in the order in which they arrive. -/
theorem search_arrives (id query time : Str) (offset max : Int) (docIds : Option (GoMap Bool)) (logic : Logic)
    (order : List (Str × Bool)) (ho : order.Perm (entriesOf docIds))
    (hs : (searchMsg id query time offset max docIds logic).size < 2 ^ 63) :
    ∃ (bs : Str) (m : SearchMsg) (ids : Option (List Str)),
      (searchMsg id query time offset max docIds logic).marshal order = some bs ∧ ({} : SearchMsg).unmarshal bs = .ok m ∧
      SameIds docIds ids ∧
      pbSearch m = { query := query, offset := int32 offset, max := int32 max, docIds := ids
                     logic := some { must := logic.must, should := logic.should, notIn := logic.notIn
                                     expr := some logic.expr } } := by
  have hp : (searchMsg id query time offset max docIds logic).Proper := by
    refine ⟨UnknownFrom.nil, fun e he => ?_⟩
    simp only [searchMsg, Option.some.injEq] at he
    subst he
    refine ⟨UnknownFrom.nil, fun e he => ?_⟩
    simp only [Option.some.injEq] at he
    subst he
    exact UnknownFrom.nil
  obtain ⟨bs, d, h1, -, h2, -, h3⟩ := C111_SearchReq _ order ho hp hs
  have key : ∀ x : Int, (BitVec.ofInt 32 x).toInt = int32 x := by
    intro x
    rw [BitVec.toInt_ofInt, Int.bmod_def]
    unfold int32
    split <;> omega
  refine ⟨bs, _, d.map fun g => g.entries.map Prod.fst, h1, h3, ⟨?_, ?_⟩, ?_⟩
  · rw [Option.map_eq_none_iff]
    exact h2.2
  · intro l hl k
    obtain ⟨g, rfl, rfl⟩ := Option.map_eq_some_iff.1 hl
    have hk : idAt docIds k = g.get k := (h2.1 k).symm
    rw [hk]
    constructor
    · intro hmem
      obtain ⟨⟨k', v⟩, he, rfl⟩ := List.mem_map.1 hmem
      rw [(g.get_eq_some_iff k' v).2 he]
      simp
    · intro hne
      obtain ⟨v, hv⟩ := Option.ne_none_iff_exists'.1 hne
      exact List.mem_map_of_mem (f := Prod.fst) ((g.get_eq_some_iff k v).1 hv)
  · simp only [pbSearch, searchMsg, key, Option.map_some]

/-- The reply of a search arrives. -/
theorem reply_arrives (now : BitVec 64) (texts : List Text) (hts : ∀ t ∈ texts, - 2 ^ 63 ≤ t.ts ∧ t.ts < 2 ^ 63)
    (hs : (replyMsg now texts).size < 2 ^ 63) :
    ∃ back : Str, (replyMsg now texts).marshal = some back ∧ ({} : ReplyMsg).unmarshal back = .ok (replyMsg now texts) ∧
      (replyMsg now texts).docs.mapM textOf = some texts := by
  have hp : (replyMsg now texts).Proper := by
    refine ⟨UnknownFrom.nil, fun t ht => ?_⟩
    obtain ⟨t, -, rfl⟩ := List.mem_map.1 ht
    refine ⟨UnknownFrom.nil, fun a ha => ?_⟩
    simp only [textMsg, Option.some.injEq] at ha
    subst ha
    exact UnknownFrom.nil
  obtain ⟨back, h1, -, -, h2⟩ := C111_SearchReply _ hp hs
  refine ⟨back, h1, h2, ?_⟩
  simp only [replyMsg, List.mapM_map]
  clear h1 h2 hp hs
  induction texts with
  | nil => rfl
  | cons t texts ih =>
    have ht := hts t (by simp)
    have e : (textOf ∘ textMsg) t = some t := by
      have : (BitVec.ofInt 64 t.ts).toInt = t.ts := by
        rw [BitVec.toInt_ofInt, Int.bmod_def]; split <;> omega
      simp [textOf, textMsg, this]
    rw [List.mapM_cons, e, ih (fun t h => hts t (by simp [h]))]
    rfl

/-- C114 for `Search`: the server searches for the query, with the options and the restriction that the client was given
(the offset and the limit as `int32`, an empty map as no restriction: C81), and the client gets the texts which the server
found, in their order, with their number. -/
theorem C114_search (gs : GSort) (conf : Conf) (search : SearchReq F → Option (SearchResp F AttriVal)) (now : BitVec 64)
    (id query time : Str) (offset max : Int) (docIds : Option (GoMap Bool)) (logic : Logic)
    (order : List (Str × Bool)) (ho : order.Perm (entriesOf docIds))
    (hs : (searchMsg id query time offset max docIds logic).size < 2 ^ 63) :
    ∃ ids : Option (List Str), SameIds docIds ids ∧
      (serverSearch gs conf search query (int32 offset) (int32 max) ids logic = none →
        rpcSearch gs conf search now order (searchMsg id query time offset max docIds logic) = .panic) ∧
      ∀ texts : List Text, serverSearch gs conf search query (int32 offset) (int32 max) ids logic = some texts →
        (∀ t ∈ texts, - 2 ^ 63 ≤ t.ts ∧ t.ts < 2 ^ 63) → (replyMsg now texts).size < 2 ^ 63 →
        ∃ r : ReplyMsg,
          rpcSearch gs conf search now order (searchMsg id query time offset max docIds logic) = .ok ((), r) ∧
          r.docs.mapM textOf = some texts ∧ r.len = BitVec.ofNat 32 texts.length ∧ r.timestamp = now ∧ r.code = 0 := by
  obtain ⟨bs, m, ids, h1, h2, h3, h4⟩ := search_arrives id query time offset max docIds logic order ho hs
  refine ⟨ids, h3, fun h5 => ?_, fun texts h5 h6 h7 => ?_⟩
  · refine rpc_crash h1 h2 ?_
    have : grpcServerSearch gs conf search (pbSearch m) = none := by rw [h4]; exact h5
    simp only [searchHandler, this, ofOpt, Out.bind]
  · obtain ⟨back, k1, k2, k3⟩ := reply_arrives now texts h6 h7
    refine ⟨replyMsg now texts, rpc_of h1 h2 ?_ k1 k2, k3, rfl, rfl, rfl⟩
    have : grpcServerSearch gs conf search (pbSearch m) = some texts := by rw [h4]; exact h5
    simp only [searchHandler, this, ofOpt, Out.bind_ok]

/-! ## Examples -/

/-- A document for `DocInx` with two tokens and marshalled attributes. -/
def sentDoc : DocReq :=
  { docId := str "7", content := str "hi", attri := [26, 1, 97, 32, 255, 255, 255, 255, 255, 255, 255, 255, 255, 1]
    tokens := [{ text := str "hi", locations := [0, 300] }, { text := [], locations := [-1] }], forceUpdate := true }

example : sentDoc.Proper ∧ sentDoc.size < 2 ^ 63 ∧
    ({ time := str "a", ts := -1 } : AttriMsg).marshal = some sentDoc.attri ∧
    ({ time := str "a", ts := -1 } : AttriMsg).Proper ∧ ({ time := str "a", ts := -1 } : AttriMsg).size < 2 ^ 63 := by
  refine ⟨⟨UnknownFrom.nil, ?_⟩, by decide +kernel, by decide +kernel, UnknownFrom.nil, by decide +kernel⟩
  intro t ht
  simp only [sentDoc, List.mem_cons, List.not_mem_nil, or_false] at ht
  rcases ht with rfl | rfl <;> exact UnknownFrom.nil

/-- A restriction to two documents. -/
def sentIds : GoMap Bool := (GoMap.empty.set (str "1") true).set (str "2") false

/-- A search engine that finds what it is asked for, with the number of the ids as time. -/
def echo (r : SearchReq Unit) : Option (SearchResp Unit AttriVal) :=
  some
    { tokens := [], timeout := false, numDocs := 1
      docs := some (.docs [{ scoredID := { docId := r.text }, content := r.text
                             attri := some (.attri (str "t") (r.docIds.getD []).length) }]) }

example : entriesOf (some sentIds) = [(str "2", false), (str "1", true)] ∧
    (searchMsg [] (str "q") [] 0 10 (some sentIds) { must := true }).size < 2 ^ 63 ∧
    rpcSearch (fun _ l => l) {} echo 5 [(str "1", true), (str "2", false)]
      (searchMsg [] (str "q") [] 0 10 (some sentIds) { must := true }) =
      .ok ((), replyMsg 5 [{ id := str "q", content := str "q", time := str "t", ts := 2 }]) := by
  refine ⟨by decide +kernel, by decide +kernel, by decide +kernel⟩

end Riot.Wire
