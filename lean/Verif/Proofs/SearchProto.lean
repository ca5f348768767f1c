import Verif.Model.SearchProto
import Mathlib.Data.List.Count
import Mathlib.Data.List.Perm.Basic
import Mathlib.Data.List.Nodup
import Mathlib.Algebra.BigOperators.Group.Finset.Basic
import Mathlib.Algebra.Order.BigOperators.Group.Finset
import Mathlib.Tactic.Linarith

namespace Riot

open Function (update)

variable {α : Type}

/-- Where a request `s` is on shard `i`: number of occurrences in the shard's queues. -/
def PState.inFlight (st : PState α) (s i : Nat) : Nat :=
  (st.lookupQ i).count s + (st.lookW i).count s + (st.rankQ i).count s + (st.rankW i).count s

structure PInv (c : ProtoCfg) (o : ProtoOracle α) (st : PState α) : Prop where
  sent_le : ∀ s, st.sent s ≤ c.numShards
  fresh : ∀ s, st.started ≤ s → st.sent s = 0
  got_sent : ∀ s, st.got s ≠ [] → st.sent s = c.numShards
  got_le : ∀ s, (st.got s).length ≤ c.numShards
  count : ∀ s i, st.inFlight s i + (st.answered s).count i = if i < st.sent s then 1 else 0
  chan : ∀ s, (st.got s).filterMap id ++ st.chan s = (st.answered s).map (o.ans s)
  timer : ∀ s, o.timeout s = false → none ∉ st.got s

theorem PInv.init (c : ProtoCfg) (o : ProtoOracle α) : PInv c o PState.init := by
  constructor <;> intros <;> simp_all [PState.init, PState.inFlight]

theorem update_count (f : Nat → List Nat) (i : Nat) (l : List Nat) (j s : Nat) :
    (update f i l j).count s = if j = i then l.count s else (f j).count s := by
  by_cases h : j = i
  · subst h; simp
  · simp [h]

theorem count_erase_mem {l : List Nat} {s : Nat} (h : s ∈ l) (t : Nat) :
    (l.erase s).count t + (if s = t then 1 else 0) = l.count t := by
  have := (List.perm_cons_erase h).count_eq t
  rw [this, List.count_cons]
  simp

theorem PInv.step {c : ProtoCfg} {o : ProtoOracle α} {st st' : PState α} (h : PInv c o st)
    (a : PAct) (hs : st.step c o a = some st') : PInv c o st' := by
  cases a with
  | start =>
    simp only [PState.step, Option.some.injEq] at hs
    subst hs
    exact ⟨h.sent_le, fun s hs => h.fresh s (by simp at hs; omega), h.got_sent, h.got_le, h.count,
      h.chan, h.timer⟩
  | send s =>
    simp only [PState.step] at hs
    split at hs
    · rename_i hg
      simp only [Option.some.injEq] at hs
      subst hs
      refine ⟨?_, ?_, ?_, h.got_le, ?_, h.chan, h.timer⟩
      · intro t
        simp only [Function.update_apply]
        split
        · omega
        · exact h.sent_le t
      · intro t ht
        simp only [Function.update_apply]
        have : t ≠ s := by rintro rfl; simp at ht; omega
        rw [if_neg this]; exact h.fresh t ht
      · intro t ht
        simp only [Function.update_apply]
        split
        · rename_i he; subst he
          have := h.got_sent t ht
          omega
        · exact h.got_sent t ht
      · intro t i
        have hc := h.count t i
        simp only [PState.inFlight, Function.update_apply] at hc ⊢
        by_cases hi : i = st.sent s
        · rw [if_pos hi]
          simp only [List.count_append, List.count_singleton, ← hi] at hc ⊢
          by_cases ht : t = s
          · subst ht
            simp only [if_true, beq_self_eq_true, hi] at hc ⊢
            simp at hc ⊢
            omega
          · have : ¬ s = t := fun e => ht e.symm
            simp only [if_neg ht, beq_iff_eq, if_neg this]
            omega
        · rw [if_neg hi, hc]
          by_cases ht : t = s
          · subst ht
            simp only [if_true]
            split <;> split <;> omega
          · simp [ht]
    · simp at hs
  | takeLookup i =>
    simp only [PState.step] at hs
    split at hs
    · rename_i s q hq
      split at hs
      · rename_i hg
        simp only [Option.some.injEq] at hs
        subst hs
        refine ⟨h.sent_le, h.fresh, h.got_sent, h.got_le, ?_, h.chan, h.timer⟩
        intro t j
        have hc := h.count t j
        simp only [PState.inFlight, update_count] at hc ⊢
        by_cases hj : j = i
        · subst hj
          rw [hq] at hc
          simp only [if_true, List.count_cons] at hc ⊢
          omega
        · simp only [if_neg hj]; exact hc
      · simp at hs
    · simp at hs
  | answer i s =>
    simp only [PState.step] at hs
    split at hs
    · rename_i hg
      obtain ⟨hi, hm, hd, hlen⟩ := hg
      simp only [Option.some.injEq] at hs
      subst hs
      refine ⟨h.sent_le, h.fresh, h.got_sent, h.got_le, ?_, ?_, h.timer⟩
      · intro t j
        have hc := h.count t j
        have he := count_erase_mem hm t
        simp only [PState.inFlight, Function.update_apply] at hc ⊢
        by_cases ht : t = s
        · subst ht
          simp only [if_true, List.count_append, List.count_singleton, beq_iff_eq] at hc he ⊢
          by_cases hj : j = i
          · subst hj; simp only [if_true]; omega
          · have : ¬ i = j := fun e => hj e.symm
            simp only [if_neg hj, if_neg this]; omega
        · have hst : ¬ s = t := fun e => ht e.symm
          simp only [if_neg ht, if_neg hst] at he ⊢
          by_cases hj : j = i
          · subst hj; simp only [if_true]; omega
          · simp only [if_neg hj]; omega
      · intro t
        have hc := h.chan t
        simp only [Function.update_apply]
        by_cases ht : t = s
        · subst ht
          simp only [if_true, List.map_append, ← hc]
          simp
        · simp only [if_neg ht]; exact hc
    · simp at hs
  | forward i s =>
    simp only [PState.step] at hs
    split at hs
    · rename_i hg
      obtain ⟨hi, hm, hd, hlen⟩ := hg
      simp only [Option.some.injEq] at hs
      subst hs
      refine ⟨h.sent_le, h.fresh, h.got_sent, h.got_le, ?_, h.chan, h.timer⟩
      intro t j
      have hc := h.count t j
      have he := count_erase_mem hm t
      simp only [PState.inFlight, update_count] at hc ⊢
      by_cases hj : j = i
      · subst hj
        simp only [if_true, List.count_append, List.count_singleton, beq_iff_eq] at hc ⊢
        omega
      · simp only [if_neg hj]; exact hc
    · simp at hs
  | takeRank i =>
    simp only [PState.step] at hs
    split at hs
    · rename_i s q hq
      split at hs
      · simp only [Option.some.injEq] at hs
        subst hs
        refine ⟨h.sent_le, h.fresh, h.got_sent, h.got_le, ?_, h.chan, h.timer⟩
        intro t j
        have hc := h.count t j
        simp only [PState.inFlight, update_count] at hc ⊢
        by_cases hj : j = i
        · subst hj
          rw [hq] at hc
          simp only [if_true, List.count_cons] at hc ⊢
          omega
        · simp only [if_neg hj]; exact hc
      · simp at hs
    · simp at hs
  | answerRank i s =>
    simp only [PState.step] at hs
    split at hs
    · rename_i hg
      obtain ⟨hi, hm, hlen⟩ := hg
      simp only [Option.some.injEq] at hs
      subst hs
      refine ⟨h.sent_le, h.fresh, h.got_sent, h.got_le, ?_, ?_, h.timer⟩
      · intro t j
        have hc := h.count t j
        have he := count_erase_mem hm t
        simp only [PState.inFlight, Function.update_apply] at hc ⊢
        by_cases ht : t = s
        · subst ht
          simp only [if_true, List.count_append, List.count_singleton, beq_iff_eq] at hc he ⊢
          by_cases hj : j = i
          · subst hj; simp only [if_true]; omega
          · have : ¬ i = j := fun e => hj e.symm
            simp only [if_neg hj, if_neg this]; omega
        · have hst : ¬ s = t := fun e => ht e.symm
          simp only [if_neg ht, if_neg hst] at he ⊢
          by_cases hj : j = i
          · subst hj; simp only [if_true]; omega
          · simp only [if_neg hj]; omega
      · intro t
        have hc := h.chan t
        simp only [Function.update_apply]
        by_cases ht : t = s
        · subst ht
          simp only [if_true, List.map_append, ← hc]
          simp
        · simp only [if_neg ht]; exact hc
    · simp at hs
  | recv s =>
    simp only [PState.step] at hs
    split at hs
    · rename_i a q hq
      split at hs
      · rename_i hg
        simp only [Option.some.injEq] at hs
        subst hs
        refine ⟨h.sent_le, h.fresh, ?_, ?_, h.count, ?_, ?_⟩
        · intro t ht
          simp only [Function.update_apply] at ht ⊢
          by_cases he : t = s
          · subst he; exact hg.2.1
          · rw [if_neg he] at ht; exact h.got_sent t ht
        · intro t
          simp only [Function.update_apply]
          by_cases he : t = s
          · subst he
            simp only [if_true, List.length_append, List.length_singleton]; omega
          · rw [if_neg he]; exact h.got_le t
        · intro t
          have hc := h.chan t
          simp only [Function.update_apply]
          by_cases he : t = s
          · subst he
            rw [hq] at hc
            simp only [if_true, ← hc]
            simp
          · simp only [if_neg he]; exact hc
        · intro t ht
          have hc := h.timer t ht
          simp only [Function.update_apply]
          by_cases he : t = s
          · subst he; simp [hc]
          · rw [if_neg he]; exact hc
      · simp at hs
    · simp at hs
  | timer s =>
    simp only [PState.step] at hs
    split at hs
    · rename_i hg
      simp only [Option.some.injEq] at hs
      subst hs
      refine ⟨h.sent_le, h.fresh, ?_, ?_, h.count, ?_, ?_⟩
      · intro t ht
        simp only [Function.update_apply] at ht ⊢
        by_cases he : t = s
        · subst he; exact hg.2.1
        · rw [if_neg he] at ht; exact h.got_sent t ht
      · intro t
        simp only [Function.update_apply]
        by_cases he : t = s
        · subst he
          simp only [if_true, List.length_append, List.length_singleton]; omega
        · rw [if_neg he]; exact h.got_le t
      · intro t
        have hc := h.chan t
        simp only [Function.update_apply]
        by_cases he : t = s
        · subst he
          simp only [if_true, ← hc]
          simp
        · simp only [if_neg he]; exact hc
      · intro t ht
        have hc := h.timer t ht
        simp only [Function.update_apply]
        by_cases he : t = s
        · subst he; simp [hg.2.2.2] at ht
        · rw [if_neg he]; exact hc
    · simp at hs

theorem PInv.run {c : ProtoCfg} {o : ProtoOracle α} {st st' : PState α} (h : PInv c o st)
    (as : List PAct) (hs : st.run c o as = some st') : PInv c o st' := by
  induction as generalizing st with
  | nil => simp only [PState.run, Option.some.injEq] at hs; exact hs ▸ h
  | cons a as ih =>
    simp only [PState.run] at hs
    obtain ⟨st1, h1, h2⟩ := Option.bind_eq_some_iff.1 hs
    exact ih (h.step a h1) h2

/-- The shards that answered are distinct shards of the engine. -/
theorem PInv.answered_nodup {c : ProtoCfg} {o : ProtoOracle α} {st : PState α} (h : PInv c o st)
    (s : Nat) : (st.answered s).Nodup ∧ ∀ i ∈ st.answered s, i < st.sent s := by
  constructor
  · rw [List.nodup_iff_count_le_one]
    intro i
    have := h.count s i
    split at this <;> omega
  · intro i hi
    have h1 := List.count_pos_iff.2 hi
    have := h.count s i
    split at this
    · assumption
    · omega

theorem nodup_length_le {l : List Nat} (h : l.Nodup) {n : Nat} (hl : ∀ i ∈ l, i < n) :
    l.length ≤ n := by
  have : l.Subperm (List.range n) :=
    h.subperm (fun i hi => List.mem_range.2 (hl i hi))
  simpa using this.length_le

/-- A shard that still holds a request has room to answer it. -/
theorem PInv.room {c : ProtoCfg} {o : ProtoOracle α} {st : PState α} (h : PInv c o st)
    {s i : Nat} (hf : 0 < st.inFlight s i) : (st.chan s).length < c.numShards := by
  obtain ⟨hn, hlt⟩ := h.answered_nodup s
  have hc := h.count s i
  have hi : i < st.sent s := by
    by_contra hh; rw [if_neg hh] at hc; omega
  rw [if_pos hi] at hc
  have hni : i ∉ st.answered s := by
    intro hm; have := List.count_pos_iff.2 hm; omega
  have : (i :: st.answered s).length ≤ st.sent s := by
    apply nodup_length_le (List.nodup_cons.2 ⟨hni, hn⟩)
    intro j hj
    rcases List.mem_cons.1 hj with rfl | hj
    · exact hi
    · exact hlt j hj
  have h1 := congrArg List.length (h.chan s)
  simp only [List.length_append, List.length_map, List.length_cons] at h1 this
  have := h.sent_le s
  omega

/-! ## Termination -/

open Finset in
/-- Work that is left. -/
def PState.work (c : ProtoCfg) (st : PState α) : Nat :=
  (∑ s ∈ range st.started, (7 * (c.numShards - st.sent s) + (c.numShards - (st.got s).length))) +
  ∑ i ∈ range c.numShards, (5 * (st.lookupQ i).length + 4 * (st.lookW i).length +
    3 * (st.rankQ i).length + 2 * (st.rankW i).length)

theorem sum_change (n i : Nat) (hi : i < n) (f g : Nat → Nat) (d : Nat)
    (hne : ∀ j, j ≠ i → f j = g j) (hd : f i + d ≤ g i) :
    ∑ j ∈ Finset.range n, f j + d ≤ ∑ j ∈ Finset.range n, g j := by
  have hm : i ∈ Finset.range n := Finset.mem_range.2 hi
  rw [← Finset.add_sum_erase _ f hm, ← Finset.add_sum_erase _ g hm]
  have : ∑ x ∈ (Finset.range n).erase i, f x = ∑ x ∈ (Finset.range n).erase i, g x :=
    Finset.sum_congr rfl (fun j hj => hne j (Finset.ne_of_mem_erase hj))
  omega

theorem sum_grow (n i : Nat) (hi : i < n) (f g : Nat → Nat) (d : Nat)
    (hne : ∀ j, j ≠ i → f j = g j) (hd : f i ≤ g i + d) :
    ∑ j ∈ Finset.range n, f j ≤ ∑ j ∈ Finset.range n, g j + d := by
  have hm : i ∈ Finset.range n := Finset.mem_range.2 hi
  rw [← Finset.add_sum_erase _ f hm, ← Finset.add_sum_erase _ g hm]
  have : ∑ x ∈ (Finset.range n).erase i, f x = ∑ x ∈ (Finset.range n).erase i, g x :=
    Finset.sum_congr rfl (fun j hj => hne j (Finset.ne_of_mem_erase hj))
  omega

theorem PState.work_step {c : ProtoCfg} {o : ProtoOracle α} {st st' : PState α}
    (a : PAct) (ha : a ≠ .start) (hs : st.step c o a = some st') :
    st'.work c + 1 ≤ st.work c ∧ st'.started = st.started := by
  cases a with
  | start => exact absurd rfl ha
  | send s =>
    simp only [PState.step] at hs
    split at hs
    · rename_i hg
      obtain ⟨h1, h2, h3⟩ := hg
      simp only [Option.some.injEq] at hs
      subst hs
      refine ⟨?_, rfl⟩
      unfold PState.work
      dsimp only
      have e1 := sum_change st.started s h1
        (fun t => 7 * (c.numShards - update st.sent s (st.sent s + 1) t) + (c.numShards - (st.got t).length))
        (fun t => 7 * (c.numShards - st.sent t) + (c.numShards - (st.got t).length)) 7
        (by intro j hj; simp [hj]) (by simp; omega)
      have e2 := sum_grow c.numShards (st.sent s) h2
        (fun i => 5 * (update st.lookupQ (st.sent s) (st.lookupQ (st.sent s) ++ [s]) i).length +
          4 * (st.lookW i).length + 3 * (st.rankQ i).length + 2 * (st.rankW i).length)
        (fun i => 5 * (st.lookupQ i).length +
          4 * (st.lookW i).length + 3 * (st.rankQ i).length + 2 * (st.rankW i).length) 5
        (by intro j hj; simp [hj]) (by simp; omega)
      omega
    · simp at hs
  | takeLookup i =>
    simp only [PState.step] at hs
    split at hs
    · rename_i s q hq
      split at hs
      · rename_i hg
        simp only [Option.some.injEq] at hs
        subst hs
        refine ⟨?_, rfl⟩
        unfold PState.work
        dsimp only
        have e2 := sum_change c.numShards i hg.1
          (fun j => 5 * (update st.lookupQ i q j).length +
            4 * (update st.lookW i (s :: st.lookW i) j).length + 3 * (st.rankQ j).length +
            2 * (st.rankW j).length)
          (fun j => 5 * (st.lookupQ j).length +
            4 * (st.lookW j).length + 3 * (st.rankQ j).length + 2 * (st.rankW j).length) 1
          (by intro j hj; simp [hj]) (by simp [hq]; omega)
        omega
      · simp at hs
    · simp at hs
  | answer i s =>
    simp only [PState.step] at hs
    split at hs
    · rename_i hg
      simp only [Option.some.injEq] at hs
      subst hs
      refine ⟨?_, rfl⟩
      unfold PState.work
      dsimp only
      have hl := List.length_erase_of_mem hg.2.1
      have hp := List.length_pos_of_mem hg.2.1
      have e2 := sum_change c.numShards i hg.1
          (fun j => 5 * (st.lookupQ j).length +
            4 * (update st.lookW i ((st.lookW i).erase s) j).length + 3 * (st.rankQ j).length +
            2 * (st.rankW j).length)
          (fun j => 5 * (st.lookupQ j).length +
            4 * (st.lookW j).length + 3 * (st.rankQ j).length + 2 * (st.rankW j).length) 1
          (by intro j hj; simp [hj]) (by simp [hl]; omega)
      omega
    · simp at hs
  | forward i s =>
    simp only [PState.step] at hs
    split at hs
    · rename_i hg
      simp only [Option.some.injEq] at hs
      subst hs
      refine ⟨?_, rfl⟩
      unfold PState.work
      dsimp only
      have hl := List.length_erase_of_mem hg.2.1
      have hp := List.length_pos_of_mem hg.2.1
      have e2 := sum_change c.numShards i hg.1
          (fun j => 5 * (st.lookupQ j).length +
            4 * (update st.lookW i ((st.lookW i).erase s) j).length +
            3 * (update st.rankQ i (st.rankQ i ++ [s]) j).length +
            2 * (st.rankW j).length)
          (fun j => 5 * (st.lookupQ j).length +
            4 * (st.lookW j).length + 3 * (st.rankQ j).length + 2 * (st.rankW j).length) 1
          (by intro j hj; simp [hj]) (by simp [hl]; omega)
      omega
    · simp at hs
  | takeRank i =>
    simp only [PState.step] at hs
    split at hs
    · rename_i s q hq
      split at hs
      · rename_i hg
        simp only [Option.some.injEq] at hs
        subst hs
        refine ⟨?_, rfl⟩
        unfold PState.work
        dsimp only
        have e2 := sum_change c.numShards i hg.1
          (fun j => 5 * (st.lookupQ j).length + 4 * (st.lookW j).length +
            3 * (update st.rankQ i q j).length +
            2 * (update st.rankW i (s :: st.rankW i) j).length)
          (fun j => 5 * (st.lookupQ j).length +
            4 * (st.lookW j).length + 3 * (st.rankQ j).length + 2 * (st.rankW j).length) 1
          (by intro j hj; simp [hj]) (by simp [hq]; omega)
        omega
      · simp at hs
    · simp at hs
  | answerRank i s =>
    simp only [PState.step] at hs
    split at hs
    · rename_i hg
      simp only [Option.some.injEq] at hs
      subst hs
      refine ⟨?_, rfl⟩
      unfold PState.work
      dsimp only
      have hl := List.length_erase_of_mem hg.2.1
      have hp := List.length_pos_of_mem hg.2.1
      have e2 := sum_change c.numShards i hg.1
          (fun j => 5 * (st.lookupQ j).length + 4 * (st.lookW j).length + 3 * (st.rankQ j).length +
            2 * (update st.rankW i ((st.rankW i).erase s) j).length)
          (fun j => 5 * (st.lookupQ j).length +
            4 * (st.lookW j).length + 3 * (st.rankQ j).length + 2 * (st.rankW j).length) 1
          (by intro j hj; simp [hj]) (by simp [hl]; omega)
      omega
    · simp at hs
  | recv s =>
    simp only [PState.step] at hs
    split at hs
    · split at hs
      · rename_i a q hq hg
        simp only [Option.some.injEq] at hs
        subst hs
        refine ⟨?_, rfl⟩
        unfold PState.work
        dsimp only
        have e1 := sum_change st.started s hg.1
          (fun t => 7 * (c.numShards - st.sent t) +
            (c.numShards - (update st.got s (st.got s ++ [some a]) t).length))
          (fun t => 7 * (c.numShards - st.sent t) + (c.numShards - (st.got t).length)) 1
          (by intro j hj; simp [hj]) (by simp; omega)
        omega
      · simp at hs
    · simp at hs
  | timer s =>
    simp only [PState.step] at hs
    split at hs
    · rename_i hg
      simp only [Option.some.injEq] at hs
      subst hs
      refine ⟨?_, rfl⟩
      unfold PState.work
      dsimp only
      have e1 := sum_change st.started s hg.1
          (fun t => 7 * (c.numShards - st.sent t) +
            (c.numShards - (update st.got s (st.got s ++ [none]) t).length))
          (fun t => 7 * (c.numShards - st.sent t) + (c.numShards - (st.got t).length)) 1
          (by intro j hj; simp [hj]) (by simp; omega)
      omega
    · simp at hs

theorem PState.work_run {c : ProtoCfg} {o : ProtoOracle α} {st st' : PState α}
    (as : List PAct) (ha : PAct.start ∉ as) (hs : st.run c o as = some st') :
    st'.work c + as.length ≤ st.work c ∧ st'.started = st.started := by
  induction as generalizing st with
  | nil => simp only [PState.run, Option.some.injEq] at hs; subst hs; simp
  | cons a as ih =>
    simp only [PState.run] at hs
    obtain ⟨st1, h1, h2⟩ := Option.bind_eq_some_iff.1 hs
    simp only [List.mem_cons, not_or] at ha
    have w1 := PState.work_step a (Ne.symm ha.1) h1
    have w2 := ih ha.2 h2
    simp only [List.length_cons]
    constructor
    · omega
    · rw [w2.2, w1.2]

/-! ## Progress -/

/-- If some shard holds a request, one of its workers can act. -/
theorem PInv.worker_enabled {c : ProtoCfg} {o : ProtoOracle α} {st : PState α} (h : PInv c o st)
    (hlt : 0 < c.lookupThreads) (hrt : 0 < c.rankThreads) (hrc : 0 < c.rankCap)
    {i : Nat} (hi : i < c.numShards)
    (hq : st.lookupQ i ≠ [] ∨ st.lookW i ≠ [] ∨ st.rankQ i ≠ [] ∨ st.rankW i ≠ []) :
    ∃ a, (a = .takeLookup i ∨ (∃ s, a = .answer i s) ∨ (∃ s, a = .forward i s) ∨
      a = .takeRank i ∨ (∃ s, a = .answerRank i s)) ∧ (st.step c o a).isSome := by
  cases hrw : st.rankW i with
  | cons s l =>
    refine ⟨.answerRank i s, by simp, ?_⟩
    have := h.room (s := s) (i := i) (by simp [PState.inFlight, hrw])
    simp [PState.step, hi, hrw, this]
  | nil =>
    cases hrq : st.rankQ i with
    | cons s l =>
      refine ⟨.takeRank i, by simp, ?_⟩
      simp [PState.step, hi, hrw, hrq, hrt]
    | nil =>
      cases hlw : st.lookW i with
      | cons s l =>
        cases hd : o.direct s i with
        | true =>
          refine ⟨.answer i s, by simp, ?_⟩
          have := h.room (s := s) (i := i) (by simp [PState.inFlight, hlw])
          simp [PState.step, hi, hlw, hd, this]
        | false =>
          refine ⟨.forward i s, by simp, ?_⟩
          simp [PState.step, hi, hlw, hd, hrq, hrc]
      | nil =>
        cases hlq : st.lookupQ i with
        | cons s l =>
          refine ⟨.takeLookup i, by simp, ?_⟩
          simp [PState.step, hi, hlq, hlw, hlt]
        | nil => simp_all

/-- When nothing but a new search can happen, every search has finished. -/
theorem PInv.quiescent {c : ProtoCfg} {o : ProtoOracle α} {st : PState α} (h : PInv c o st)
    (hlc : 0 < c.lookupCap) (hlt : 0 < c.lookupThreads) (hrt : 0 < c.rankThreads) (hrc : 0 < c.rankCap)
    (hq : ∀ a, a ≠ .start → st.step c o a = none) (s : Nat) (hs : s < st.started) :
    (st.got s).length = c.numShards ∧ (st.answered s).Perm (List.range c.numShards) := by
  have hempty : ∀ i, i < c.numShards →
      st.lookupQ i = [] ∧ st.lookW i = [] ∧ st.rankQ i = [] ∧ st.rankW i = [] := by
    intro i hi
    by_contra hne
    obtain ⟨a, ha, hen⟩ := h.worker_enabled hlt hrt hrc hi (by
      by_contra hh
      simp only [not_or, not_not] at hh
      exact hne hh)
    have hns : a ≠ .start := by
      rintro rfl
      rcases ha with h | ⟨_, h⟩ | ⟨_, h⟩ | h | ⟨_, h⟩ <;> cases h
    rw [hq a hns] at hen
    simp at hen
  have hsent : st.sent s = c.numShards := by
    by_contra hne
    have hlt : st.sent s < c.numShards := lt_of_le_of_ne (h.sent_le s) hne
    have := hq (.send s) (by simp)
    simp [PState.step, hs, hlt, (hempty _ hlt).1, hlc] at this
  have hperm : (st.answered s).Perm (List.range c.numShards) := by
    obtain ⟨hn, hl⟩ := h.answered_nodup s
    rw [List.perm_ext_iff_of_nodup hn List.nodup_range]
    intro i
    rw [List.mem_range]
    constructor
    · intro hi; rw [← hsent]; exact hl i hi
    · intro hi
      have hc := h.count s i
      obtain ⟨h1, h2, h3, h4⟩ := hempty i hi
      rw [if_pos (by omega)] at hc
      simp only [PState.inFlight, h1, h2, h3, h4, List.count_nil] at hc
      exact List.count_pos_iff.1 (by omega)
  refine ⟨?_, hperm⟩
  by_contra hne
  have hglt : (st.got s).length < c.numShards := lt_of_le_of_ne (h.got_le s) hne
  cases hch : st.chan s with
  | cons a q =>
    have := hq (.recv s) (by simp)
    simp [PState.step, hch, hs, hsent, hglt] at this
  | nil =>
    have h1 := congrArg List.length (h.chan s)
    rw [hch] at h1
    simp only [List.length_append, List.length_map, List.length_nil, hperm.length_eq,
      List.length_range] at h1
    have := List.length_filterMap_le id (st.got s)
    omega

end Riot
