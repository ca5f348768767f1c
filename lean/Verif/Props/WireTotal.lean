import Verif.Proofs.WireTotal
import Verif.Spec.Wire
import Mathlib.Data.List.Infix

/-!
# C112, C113: bytes that are no message

What `Unmarshal` of the messages of the gRPC service does with arbitrary bytes: it always ends (C113), but some bytes make
it crash (C112): the index of the end of a field is computed without a check for overflow.
-/

namespace Riot.Wire

/-- A length as in `HugeLength` has four bytes 255 in a row, if there are less than 256 MB. -/
theorem noHuge {d : Str} (hl : d.length < 2 ^ 28) (hf : ¬ FourFF d) : ¬ HugeLength d := by
  rintro ⟨p, n, hp, hv, h1, h2⟩
  exact hf ((near_ff hv (by omega)).trans hp)

theorem noCrash {d : Str} (hl : d.length < 2 ^ 62) (hf : ¬ HugeLength d) : ¬ MayCrash d := by
  rintro (h | h)
  · exact hf h
  · omega

theorem Safe.noPanic {α : Type} {ff : Prop} {Q : α → Prop} {x : Out α} (h : Safe ff Q x) (hf : ¬ ff) : x.Ended := by
  cases x with
  | ok a => trivial
  | err => trivial
  | panic => exact hf h
  | hang => exact h

theorem Safe.noHang {α : Type} {ff : Prop} {Q : α → Prop} {x : Out α} (h : Safe ff Q x) : x ≠ .hang := by
  rintro rfl; exact h

/-- C112 for `HeartReq`, unless a varint in the bytes is a length that leads beyond `2 ^ 63`: `Unmarshal` gives a message
or an error. -/
theorem C112_HeartReq_partial (m : HeartReq) (d : Str) (hl : d.length < 2 ^ 62) (hf : ¬ HugeLength d) : (m.unmarshal d).Ended :=
  (HeartReq.safe (by omega) m (List.infix_refl d)).noPanic (noCrash hl hf)

/-- C112 for `Reply`, unless a varint in the bytes is a length that leads beyond `2 ^ 63`: `Unmarshal` gives a message
or an error. -/
theorem C112_Reply_partial (m : Reply) (d : Str) (hl : d.length < 2 ^ 62) (hf : ¬ HugeLength d) : (m.unmarshal d).Ended :=
  (Reply.safe (by omega) m (List.infix_refl d)).noPanic (noCrash hl hf)

/-- C112 for `DeleteReq`, unless a varint in the bytes is a length that leads beyond `2 ^ 63`: `Unmarshal` gives a message
or an error. -/
theorem C112_DeleteReq_partial (m : DeleteReq) (d : Str) (hl : d.length < 2 ^ 62) (hf : ¬ HugeLength d) : (m.unmarshal d).Ended :=
  (DeleteReq.safe (by omega) m (List.infix_refl d)).noPanic (noCrash hl hf)

/-- C112 for `TokenData`, unless a varint in the bytes is a length that leads beyond `2 ^ 63`: `Unmarshal` gives a message
or an error. -/
theorem C112_TokenData_partial (m : TokenMsg) (d : Str) (hl : d.length < 2 ^ 62) (hf : ¬ HugeLength d) : (m.unmarshal d).Ended :=
  (TokenMsg.safe (by omega) m (List.infix_refl d)).noPanic (noCrash hl hf)

/-- C112 for `DocReq`, unless a varint in the bytes is a length that leads beyond `2 ^ 63`: `Unmarshal` gives a message
or an error. -/
theorem C112_DocReq_partial (m : DocReq) (d : Str) (hl : d.length < 2 ^ 62) (hf : ¬ HugeLength d) : (m.unmarshal d).Ended :=
  (DocReq.safe (by omega) m (List.infix_refl d)).noPanic (noCrash hl hf)

/-- C112 for `Expr`, unless a varint in the bytes is a length that leads beyond `2 ^ 63`: `Unmarshal` gives a message
or an error. -/
theorem C112_Expr_partial (m : ExprMsg) (d : Str) (hl : d.length < 2 ^ 62) (hf : ¬ HugeLength d) : (m.unmarshal d).Ended :=
  (ExprMsg.safe (by omega) m (List.infix_refl d)).noPanic (noCrash hl hf)

/-- C112 for `Logic`, unless a varint in the bytes is a length that leads beyond `2 ^ 63`: `Unmarshal` gives a message
or an error. -/
theorem C112_Logic_partial (m : LogicMsg) (d : Str) (hl : d.length < 2 ^ 62) (hf : ¬ HugeLength d) : (m.unmarshal d).Ended :=
  (LogicMsg.safe (by omega) m (List.infix_refl d)).noPanic (noCrash hl hf)

/-- C112 for `SearchReq`, unless a varint in the bytes is a length that leads beyond `2 ^ 63`: `Unmarshal` gives a message
or an error. -/
theorem C112_SearchReq_partial (m : SearchMsg) (d : Str) (hl : d.length < 2 ^ 62) (hf : ¬ HugeLength d) : (m.unmarshal d).Ended :=
  (SearchMsg.safe (by omega) m (List.infix_refl d)).noPanic (noCrash hl hf)

/-- C112 for `Attri`, unless a varint in the bytes is a length that leads beyond `2 ^ 63`: `Unmarshal` gives a message
or an error. -/
theorem C112_Attri_partial (m : AttriMsg) (d : Str) (hl : d.length < 2 ^ 62) (hf : ¬ HugeLength d) : (m.unmarshal d).Ended :=
  (AttriMsg.safe (by omega) m (List.infix_refl d)).noPanic (noCrash hl hf)

/-- C112 for `Text`, unless a varint in the bytes is a length that leads beyond `2 ^ 63`: `Unmarshal` gives a message
or an error. -/
theorem C112_Text_partial (m : TextMsg) (d : Str) (hl : d.length < 2 ^ 62) (hf : ¬ HugeLength d) : (m.unmarshal d).Ended :=
  (TextMsg.safe (by omega) m (List.infix_refl d)).noPanic (noCrash hl hf)

/-- C112 for `SearchReply`, unless a varint in the bytes is a length that leads beyond `2 ^ 63`: `Unmarshal` gives a message
or an error. -/
theorem C112_SearchReply_partial (m : ReplyMsg) (d : Str) (hl : d.length < 2 ^ 62) (hf : ¬ HugeLength d) : (m.unmarshal d).Ended :=
  (ReplyMsg.safe (by omega) m (List.infix_refl d)).noPanic (noCrash hl hf)

/-- C112 in terms of bytes: every message in less than 256 MB without four bytes 255 in a row gives a message or an error,
for all eleven kinds of messages. -/
theorem C112_bytes_partial (d : Str) (hl : d.length < 2 ^ 28) (hf : ¬ FourFF d) :
    (∀ m : HeartReq, (m.unmarshal d).Ended) ∧ (∀ m : Reply, (m.unmarshal d).Ended) ∧
    (∀ m : DeleteReq, (m.unmarshal d).Ended) ∧ (∀ m : TokenMsg, (m.unmarshal d).Ended) ∧
    (∀ m : DocReq, (m.unmarshal d).Ended) ∧ (∀ m : ExprMsg, (m.unmarshal d).Ended) ∧
    (∀ m : LogicMsg, (m.unmarshal d).Ended) ∧ (∀ m : SearchMsg, (m.unmarshal d).Ended) ∧
    (∀ m : AttriMsg, (m.unmarshal d).Ended) ∧ (∀ m : TextMsg, (m.unmarshal d).Ended) ∧
    (∀ m : ReplyMsg, (m.unmarshal d).Ended) := by
  have h : d.length < 2 ^ 62 := by omega
  have hn := noHuge hl hf
  exact ⟨fun m => C112_HeartReq_partial m d h hn, fun m => C112_Reply_partial m d h hn,
    fun m => C112_DeleteReq_partial m d h hn, fun m => C112_TokenData_partial m d h hn,
    fun m => C112_DocReq_partial m d h hn, fun m => C112_Expr_partial m d h hn,
    fun m => C112_Logic_partial m d h hn, fun m => C112_SearchReq_partial m d h hn,
    fun m => C112_Attri_partial m d h hn, fun m => C112_Text_partial m d h hn,
    fun m => C112_SearchReply_partial m d h hn⟩

/-- A tag of a field that no message has, and a field in that group whose length is `2 ^ 63 - 1`. -/
def crashBytes : Str := [0x7b, 0x12, 255, 255, 255, 255, 255, 255, 255, 255, 0x7f]

/-- C112 is false: these eleven bytes crash the `Unmarshal` of every message. -/
theorem C112_refuted :
    ({} : HeartReq).unmarshal crashBytes = .panic ∧
    ({} : Reply).unmarshal crashBytes = .panic ∧
    ({} : DeleteReq).unmarshal crashBytes = .panic ∧
    ({} : TokenMsg).unmarshal crashBytes = .panic ∧
    ({} : DocReq).unmarshal crashBytes = .panic ∧
    ({} : ExprMsg).unmarshal crashBytes = .panic ∧
    ({} : LogicMsg).unmarshal crashBytes = .panic ∧
    ({} : SearchMsg).unmarshal crashBytes = .panic ∧
    ({} : AttriMsg).unmarshal crashBytes = .panic ∧
    ({} : TextMsg).unmarshal crashBytes = .panic ∧
    ({} : ReplyMsg).unmarshal crashBytes = .panic := by
  refine ⟨?_, ?_, ?_, ?_, ?_, ?_, ?_, ?_, ?_, ?_, ?_⟩ <;> rfl

/-- C112 is false also with a field that the message has: a document id of length `2 ^ 63 - 1`. -/
theorem C112_refuted_string :
    ({} : DeleteReq).unmarshal [0x0a, 255, 255, 255, 255, 255, 255, 255, 255, 0x7f] = .panic ∧
    ({} : DocReq).unmarshal [0x0a, 255, 255, 255, 255, 255, 255, 255, 255, 0x7f] = .panic ∧
    ({} : SearchMsg).unmarshal [0x0a, 255, 255, 255, 255, 255, 255, 255, 255, 0x7f] = .panic := by
  refine ⟨?_, ?_, ?_⟩ <;> rfl

/-- C113 for `HeartReq`: `Unmarshal` ends, whatever the bytes. -/
theorem C113_HeartReq (m : HeartReq) (d : Str) (hl : d.length < 2 ^ 63) : m.unmarshal d ≠ .hang :=
  (HeartReq.safe hl m (List.infix_refl d)).noHang

/-- C113 for `Reply`: `Unmarshal` ends, whatever the bytes. -/
theorem C113_Reply (m : Reply) (d : Str) (hl : d.length < 2 ^ 63) : m.unmarshal d ≠ .hang :=
  (Reply.safe hl m (List.infix_refl d)).noHang

/-- C113 for `DeleteReq`: `Unmarshal` ends, whatever the bytes. -/
theorem C113_DeleteReq (m : DeleteReq) (d : Str) (hl : d.length < 2 ^ 63) : m.unmarshal d ≠ .hang :=
  (DeleteReq.safe hl m (List.infix_refl d)).noHang

/-- C113 for `TokenData`: `Unmarshal` ends, whatever the bytes. -/
theorem C113_TokenData (m : TokenMsg) (d : Str) (hl : d.length < 2 ^ 63) : m.unmarshal d ≠ .hang :=
  (TokenMsg.safe hl m (List.infix_refl d)).noHang

/-- C113 for `DocReq`: `Unmarshal` ends, whatever the bytes. -/
theorem C113_DocReq (m : DocReq) (d : Str) (hl : d.length < 2 ^ 63) : m.unmarshal d ≠ .hang :=
  (DocReq.safe hl m (List.infix_refl d)).noHang

/-- C113 for `Expr`: `Unmarshal` ends, whatever the bytes. -/
theorem C113_Expr (m : ExprMsg) (d : Str) (hl : d.length < 2 ^ 63) : m.unmarshal d ≠ .hang :=
  (ExprMsg.safe hl m (List.infix_refl d)).noHang

/-- C113 for `Logic`: `Unmarshal` ends, whatever the bytes. -/
theorem C113_Logic (m : LogicMsg) (d : Str) (hl : d.length < 2 ^ 63) : m.unmarshal d ≠ .hang :=
  (LogicMsg.safe hl m (List.infix_refl d)).noHang

/-- C113 for `SearchReq`: `Unmarshal` ends, whatever the bytes. -/
theorem C113_SearchReq (m : SearchMsg) (d : Str) (hl : d.length < 2 ^ 63) : m.unmarshal d ≠ .hang :=
  (SearchMsg.safe hl m (List.infix_refl d)).noHang

/-- C113 for `Attri`: `Unmarshal` ends, whatever the bytes. -/
theorem C113_Attri (m : AttriMsg) (d : Str) (hl : d.length < 2 ^ 63) : m.unmarshal d ≠ .hang :=
  (AttriMsg.safe hl m (List.infix_refl d)).noHang

/-- C113 for `Text`: `Unmarshal` ends, whatever the bytes. -/
theorem C113_Text (m : TextMsg) (d : Str) (hl : d.length < 2 ^ 63) : m.unmarshal d ≠ .hang :=
  (TextMsg.safe hl m (List.infix_refl d)).noHang

/-- C113 for `SearchReply`: `Unmarshal` ends, whatever the bytes. -/
theorem C113_SearchReply (m : ReplyMsg) (d : Str) (hl : d.length < 2 ^ 63) : m.unmarshal d ≠ .hang :=
  (ReplyMsg.safe hl m (List.infix_refl d)).noHang

/-- Bytes that are cut off in the middle of a message: an error, no crash. -/
def cutBytes : Str := [0x0a, 1, 55, 0x12, 5, 104, 105]

/-- The bytes that crash have such a length in them. -/
example : HugeLength crashBytes := by
  refine ⟨[255, 255, 255, 255, 255, 255, 255, 255, 0x7f], 2 ^ 63 - 1, ⟨[0x7b, 0x12], [], rfl⟩, ?_, by decide, by decide⟩
  have h := Varint.last 0x7f (by decide)
  exact (((((((h.more 255 (by decide)).more 255 (by decide)).more 255 (by decide)).more 255 (by decide)).more 255
    (by decide)).more 255 (by decide)).more 255 (by decide)).more 255 (by decide)

example : cutBytes.length < 2 ^ 28 ∧ ¬ FourFF cutBytes ∧ ({} : DocReq).unmarshal cutBytes = .err := by
  refine ⟨by decide, by unfold FourFF cutBytes; decide, rfl⟩

/-- The number of a varint, for examples. -/
def varintNum : Str → Option Nat
  | [] => none
  | b :: bs => if b.val < 128 then (if bs = [] then some b.val else none) else (varintNum bs).map fun n => b.val - 128 + 128 * n

theorem varintNum_eq {p : Str} {n : Nat} (h : Varint p n) : varintNum p = some n := by
  induction h with
  | last b h => simp [varintNum, h]
  | more b h _ ih => rw [varintNum, if_neg (by omega), ih]; rfl

theorem noHuge_of {d : Str}
    (h : ∀ p ∈ d.tails.flatMap List.inits, ∀ n ∈ varintNum p, n % 2 ^ 64 < 2 ^ 63 → n % 2 ^ 64 + d.length < 2 ^ 63) :
    ¬ HugeLength d := by
  rintro ⟨p, n, hp, hv, h1, h2⟩
  have hm : p ∈ d.tails.flatMap List.inits := by
    obtain ⟨t, hpt, hts⟩ := List.infix_iff_prefix_suffix.mp hp
    exact List.mem_flatMap.mpr ⟨t, (List.mem_tails _ _).mpr hts, (List.mem_inits _ _).mpr hpt⟩
  have := h p hm n (varintNum_eq hv) h1
  omega

/-- A search whose offset is -1 (ten bytes, nine of them 255): no length in it is huge, and it is read. -/
def minusOne : Str := [0x12, 2, 104, 105, 0x18, 255, 255, 255, 255, 255, 255, 255, 255, 255, 1]

example : minusOne.length < 2 ^ 62 ∧ ¬ HugeLength minusOne ∧ FourFF minusOne ∧
    ({} : SearchMsg).unmarshal minusOne = .ok { query := [104, 105], outputOffset := 0xffffffff#32 } := by
  refine ⟨by decide, noHuge_of (by decide +kernel), by unfold FourFF minusOne; decide, rfl⟩

end Riot.Wire
