import Verif.Proofs.Float32Shape
import Verif.Props.Index
import Mathlib.Algebra.Order.Ring.Pow

/-!
# The index with float32 arithmetic (C78, C79)

The other properties of the index are about exact arithmetic. Here `f32` is the rounding of
Go's `float32`; `runF`, `lookupF` are the code with a rounding after every operation.
-/

namespace Riot

/-! ## C78 -/

/-- **C78** (partial: as long as the index never holds more than 2^24 tokens). In every history of
calls with documents of any (whole) length, float32 arithmetic computes exactly the state exact
arithmetic computes; right after a forced refresh its total is the sum of the lengths of the visible
documents. -/
theorem C78_exact_totals_partial {so : Sorter} (hso : SortOk so) (o : IndexerOpts) (h : List IdxOp)
    (hok : ∀ op ∈ h, OpOk op) (hlen : ∀ op ∈ h, LenOk op) (hb : TotalsUpTo (2 ^ 24) so o h) (s : Indexer)
    (hr : (Indexer.init o).run so h = some s) :
    (Indexer.init o).runF f32 so h = some s ∧
    ∃ tr, Trace h tr ∧ ∀ i ≤ h.length, ∀ si, (Indexer.init o).runF f32 so (h.take i) = some si →
      ∃ docs, Enumerates docs (tr i).vis ∧ si.numDocs = docs.length ∧
        ((∃ op, (h.take i).getLast? = some op ∧ op.refreshes = true) →
          si.totalTokenLen = (docs.map (·.tokenLen)).sum) := by
  refine ⟨(runF_exact f32_exactUpTo hso o h hok hlen hb s hr).1, ?_⟩
  obtain ⟨tr, ht, hall⟩ := C12_statistics hso o h hok s hr
  refine ⟨tr, ht, ?_⟩
  intro i hi si hsi
  have hsim := run_sim (rnd := f32) so (h.take i) (Indexer.init o) (Indexer.init o) (SameBut.refl _)
  rcases hsim with ⟨_, h2⟩ | ⟨a, b, h1, h2, _⟩
  · rw [h2] at hsi; simp at hsi
  have hex := (runF_exact f32_exactUpTo hso o (h.take i) (fun op hop => hok op (List.mem_of_mem_take hop))
    (fun op hop => hlen op (List.mem_of_mem_take hop))
    (fun j t ht => by
      rw [List.take_take] at ht
      exact hb _ t ht) a h1).1
  rw [hex, Option.some.injEq] at hsi
  subst hsi
  obtain ⟨docs, d1, d2, _, d4⟩ := hall i hi a h1
  exact ⟨docs, d1, d2, d4⟩

/-- **C78** (partial). Whatever the rounding does, and however many tokens there are: a history and a
request crash with rounded arithmetic if and only if they crash with exact arithmetic, and the answer
has the same documents in the same order with the same proximities, snippets and locations. -/
theorem C78_same_documents_partial (rnd log2 : Rat → Rat) (idf : Int → Nat → Rat) (so : Sorter)
    (o : IndexerOpts) (h : List IdxOp) (tokens labels : List Str) (docIds : Option (List Str))
    (countOnly : Bool) (logic : Option Logic) :
    SameDocs (runLookupF rnd idf so o h tokens labels docIds countOnly logic)
      (runLookupX log2 so o h tokens labels docIds countOnly logic) := by
  unfold runLookupF runLookupX
  rcases run_sim (rnd := rnd) so h (Indexer.init o) (Indexer.init o) (SameBut.refl _) with
    ⟨h1, h2⟩ | ⟨a, b, h1, h2, h3⟩
  · rw [h1, h2]; exact .inl ⟨rfl, rfl⟩
  · rw [h1, h2]
    exact lookup_shape h3 tokens labels docIds countOnly logic

theorem roundEven_nearest (q : Rat) (k : Int) : |(roundEven q : Rat) - q| ≤ |(k : Rat) - q| ∧
    (|(roundEven q : Rat) - q| = |(k : Rat) - q| → k = roundEven q ∨ roundEven q % 2 = 0) := by
  have h1 := Int.floor_le q
  have h2 := Int.lt_floor_add_one q
  generalize hz : ⌊q⌋ = z at h1 h2
  have hk : (k : Rat) ≤ z ∨ (z : Rat) + 1 ≤ k := by
    rcases le_or_gt k z with h | h
    · left; exact_mod_cast h
    · right; exact_mod_cast h
  have hkz : k ≤ z ∨ z + 1 ≤ k := by omega
  unfold roundEven
  rw [hz]
  have up : (z : Rat) + 1 ≤ k → |(k : Rat) - q| = k - q := fun h => abs_of_nonneg (by linarith)
  have down : (k : Rat) ≤ z → |(k : Rat) - q| = q - k := fun h => by rw [abs_sub_comm]; exact abs_of_nonneg (by linarith)
  have hd : |(z : Rat) - q| = q - z := by rw [abs_sub_comm]; exact abs_of_nonneg (by linarith)
  have hu : |((z + 1 : Int) : Rat) - q| = z + 1 - q := by push_cast; exact abs_of_nonneg (by linarith)
  split
  · rename_i ha
    rw [hd]
    rcases hk with h | h
    · rw [down h]
      refine ⟨by linarith, fun he => Or.inl ?_⟩
      have : (k : Rat) = z := by linarith
      exact_mod_cast this
    · rw [up h]; exact ⟨by linarith, fun he => by linarith⟩
  · rename_i ha
    split
    · rename_i hb
      rw [hu]
      rcases hk with h | h
      · rw [down h]; exact ⟨by linarith, fun he => by linarith⟩
      · rw [up h]
        refine ⟨by linarith, fun he => Or.inl ?_⟩
        have : (k : Rat) = z + 1 := by linarith
        exact_mod_cast this
    · rename_i hb
      have hq : q - z = 1 / 2 := by linarith
      split
      · rename_i he
        rw [hd]
        rcases hk with h | h
        · rw [down h]; exact ⟨by linarith, fun _ => Or.inr he⟩
        · rw [up h]; exact ⟨by linarith, fun _ => Or.inr he⟩
      · rename_i he
        rw [hu]
        rcases hk with h | h
        · rw [down h]; exact ⟨by linarith, fun _ => Or.inr (by omega)⟩
        · rw [up h]; exact ⟨by linarith, fun _ => Or.inr (by omega)⟩

theorem roundEven_neg (q : Rat) : roundEven (-q) = - roundEven q := by
  have h1 := Int.floor_le q
  have h2 := Int.lt_floor_add_one q
  generalize hz : ⌊q⌋ = z at h1 h2
  by_cases hq : q = z
  · subst hq
    rw [roundEven_int]
    have := roundEven_int (-z)
    push_cast at this; exact this
  · have hlt : (z : Rat) < q := lt_of_le_of_ne h1 (Ne.symm hq)
    have hf : ⌊-q⌋ = -z - 1 := by
      rw [Int.floor_eq_iff]; push_cast; constructor <;> linarith
    unfold roundEven
    rw [hz, hf]
    push_cast
    by_cases a : q - z < 1 / 2
    · rw [if_neg (by linarith), if_pos (by linarith), if_pos a]; omega
    · by_cases b : 1 / 2 < q - z
      · rw [if_pos (by linarith), if_neg a, if_pos b]; omega
      · rw [if_neg (by linarith), if_neg (by linarith), if_neg a, if_neg b]
        by_cases e : z % 2 = 0
        · rw [if_pos e, if_neg (by omega)]; omega
        · rw [if_neg e, if_pos (by omega)]; omega

theorem roundEven_range {q : Rat} (h1 : (2 : Rat) ^ 23 ≤ |q|) (h2 : |q| < 2 ^ 24) :
    2 ^ 23 ≤ |roundEven q| ∧ |roundEven q| ≤ 2 ^ 24 := by
  have pos : ∀ q : Rat, (2 : Rat) ^ 23 ≤ q → q < 2 ^ 24 → 2 ^ 23 ≤ roundEven q ∧ roundEven q ≤ 2 ^ 24 := by
    intro q a b
    have c : (2 ^ 23 : Int) ≤ ⌊q⌋ := Int.le_floor.2 (by exact_mod_cast a)
    have d : ⌊q⌋ < 2 ^ 24 := Int.floor_lt.2 (by exact_mod_cast b)
    have r : roundEven q = ⌊q⌋ ∨ roundEven q = ⌊q⌋ + 1 := by
      unfold roundEven; repeat' split
      all_goals simp
    omega
  rcases le_or_gt 0 q with h | h
  · rw [abs_of_nonneg h] at h1 h2
    obtain ⟨a, b⟩ := pos q h1 h2
    rw [abs_of_nonneg (by omega)]; exact ⟨a, b⟩
  · rw [abs_of_neg h] at h1 h2
    obtain ⟨a, b⟩ := pos (-q) h1 h2
    rw [roundEven_neg] at a b
    rw [abs_of_neg (by omega)]; exact ⟨a, b⟩

/-- **C78** (the rounding of the model) `f32` is the rounding of IEEE 754 for binary32 (without bounds on the exponent): its result is a float32 value, no
float32 value is closer, and of two that are equally close it is the even one. -/
theorem C78_rounding (x : Rat) : IsF32 (f32 x) ∧ ∀ y, IsF32 y → |f32 x - x| ≤ |y - x| ∧
    (|f32 x - x| = |y - x| → y = f32 x ∨ EvenF32 (f32 x)) := by
  by_cases hx : x = 0
  · subst hx
    have : f32 0 = 0 := by simpa using f32_int 0 (by norm_num)
    rw [this]
    refine ⟨⟨0, 0, by norm_num, by norm_num⟩, fun y _ => ?_⟩
    simp only [sub_zero, abs_zero]
    refine ⟨abs_nonneg y, fun h => Or.inl (abs_eq_zero.1 h.symm)⟩
  have hu := ulp32_pos x
  generalize he : Int.log 2 |x| - 23 = e
  have hue : ulp32 x = (2 : Rat) ^ e := by rw [ulp32, he]
  have hxpos : 0 < |x| := abs_pos.2 hx
  have hlo : (2 : Rat) ^ 23 * ulp32 x ≤ |x| := by
    have := Int.zpow_log_le_self (b := 2) (by norm_num) hxpos
    rw [hue, ← he, zpow_sub₀ (by norm_num)]
    have h23 : ((2 : Rat) ^ (23 : Int)) = 2 ^ 23 := by norm_cast
    rw [h23]
    calc (2:Rat)^23 * (2 ^ Int.log 2 |x| / 2 ^ 23) = 2 ^ Int.log 2 |x| := by field_simp
      _ ≤ |x| := by exact_mod_cast this
  have hhi : |x| < (2 : Rat) ^ 24 * ulp32 x := by
    have := Int.lt_zpow_succ_log_self (b := 2) (by norm_num) |x|
    rw [hue, ← he, zpow_sub₀ (by norm_num)]
    have h23 : ((2 : Rat) ^ (23 : Int)) = 2 ^ 23 := by norm_cast
    rw [h23]
    calc |x| < (2:Rat) ^ (Int.log 2 |x| + 1) := by exact_mod_cast this
      _ = (2:Rat)^24 * (2 ^ Int.log 2 |x| / 2 ^ 23) := by rw [zpow_add_one₀ (by norm_num)]; field_simp
  have hq : x = x / ulp32 x * ulp32 x := by field_simp
  generalize hqq : x / ulp32 x = q at hq
  have hf : f32 x = roundEven q * ulp32 x := by rw [f32, hqq]
  have habs : |x| = |q| * ulp32 x := by rw [hq, abs_mul, abs_of_pos hu, ← hq]
  rw [habs] at hlo hhi
  have hqlo : (2 : Rat) ^ 23 ≤ |q| := le_of_mul_le_mul_right hlo hu
  have hqhi : |q| < (2 : Rat) ^ 24 := lt_of_mul_lt_mul_right hhi hu.le
  obtain ⟨m1, m2⟩ := roundEven_range hqlo hqhi
  have hnear := roundEven_nearest q
  have hdist : ∀ z : Rat, |z * ulp32 x - x| = |z - q| * ulp32 x := by
    intro z
    rw [show z * ulp32 x - x = (z - q) * ulp32 x by rw [sub_mul, ← hq], abs_mul, abs_of_pos hu]
  generalize hmm : roundEven q = m at m1 m2 hf hnear
  have heven : m % 2 = 0 → EvenF32 (f32 x) := by
    intro h0
    rcases lt_or_eq_of_le m2 with h | h
    · exact ⟨m, e, m1, h, h0, by rw [hf, hue]⟩
    · rcases abs_eq (by norm_num) |>.1 h with h | h
      · exact ⟨2 ^ 23, e + 1, by norm_num, by norm_num, by norm_num, by
          rw [hf, hue, h, zpow_add_one₀ (by norm_num)]; push_cast; ring⟩
      · exact ⟨-2 ^ 23, e + 1, by norm_num, by norm_num, by norm_num, by
          rw [hf, hue, h, zpow_add_one₀ (by norm_num)]; push_cast; ring⟩
  have hmul : ∀ k : Int, |f32 x - x| ≤ |(k : Rat) * ulp32 x - x| ∧
      (|f32 x - x| = |(k : Rat) * ulp32 x - x| → (k : Rat) * ulp32 x = f32 x ∨ EvenF32 (f32 x)) := by
    intro k
    rw [hf, hdist, hdist]
    refine ⟨mul_le_mul_of_nonneg_right (hnear k).1 hu.le, fun h => ?_⟩
    rcases (hnear k).2 (mul_right_cancel₀ hu.ne' h) with rfl | h0
    · exact Or.inl rfl
    · right; rw [← hf]; exact heven h0
  refine ⟨?_, ?_⟩
  · rcases lt_or_eq_of_le m2 with h | h
    · exact ⟨m, e, h, by rw [hf, hue]⟩
    · obtain ⟨a, b, _, c, _, d⟩ := heven (by rcases abs_eq (by norm_num) |>.1 h with h | h <;> rw [h] <;> norm_num)
      exact ⟨a, b, c, d⟩
  · rintro y ⟨a, e', ha, hy⟩
    rcases le_or_gt e e' with hle | hlt
    · have hk : y = ((a * 2 ^ (e' - e).toNat : Int) : Rat) * ulp32 x := by
        rw [hy, hue]
        have : e' = e + ((e' - e).toNat : Int) := by omega
        conv_lhs => rw [this, zpow_add₀ (by norm_num), zpow_natCast]
        push_cast; ring
      rw [hk]; exact hmul _
    · -- y is too small
      have hys : |y| < (2 : Rat) ^ 23 * ulp32 x := by
        rw [hy, abs_mul, abs_of_pos (show (0 : Rat) < 2 ^ e' from zpow_pos (by norm_num) _)]
        have h1 : (2 : Rat) ^ e' ≤ 2 ^ (e - 1) := zpow_le_zpow_right₀ (by norm_num) (by omega)
        have h2 : ulp32 x = 2 * (2 : Rat) ^ (e - 1) := by rw [hue, zpow_sub_one₀ (by norm_num)]; ring
        have h3 : |(a : Rat)| < 2 ^ 24 := by exact_mod_cast ha
        have h4 : (0 : Rat) < 2 ^ (e - 1) := zpow_pos (by norm_num) _
        calc |(a : Rat)| * 2 ^ e' ≤ |(a : Rat)| * 2 ^ (e - 1) := mul_le_mul_of_nonneg_left h1 (abs_nonneg _)
          _ < 2 ^ 24 * 2 ^ (e - 1) := mul_lt_mul_of_pos_right h3 h4
          _ = 2 ^ 23 * ulp32 x := by rw [h2]; ring
      have hxl : (2 : Rat) ^ 23 * ulp32 x ≤ |x| := by rw [habs]; exact hlo
      have hstrict : |f32 x - x| < |y - x| := by
        rcases lt_or_gt_of_ne hx with hn | hp
        · have := (hmul (-2 ^ 23)).1
          rw [abs_of_neg hn] at hxl
          push_cast at this
          rw [abs_of_nonneg (show 0 ≤ -8388608 * ulp32 x - x by linarith)] at this
          have h5 := (abs_lt.1 hys).1
          have h6 := le_abs_self (y - x)
          linarith
        · have := (hmul (2 ^ 23)).1
          rw [abs_of_pos hp] at hxl
          push_cast at this
          rw [abs_sub_comm, abs_sub_comm _ x, abs_of_nonneg (show 0 ≤ x - 8388608 * ulp32 x by linarith)] at this
          have h5 := (abs_lt.1 hys).2
          have h6 := neg_abs_le (y - x)
          rw [abs_sub_comm] at this
          linarith
      exact ⟨hstrict.le, fun h => absurd h hstrict.ne⟩
/-- A tie: the number half way between two float32 values goes to the even one, downwards and upwards. -/
example : f32 (2 ^ 24 + 1) = 2 ^ 24 ∧ f32 (2 ^ 24 + 3) = 2 ^ 24 + 4 := by decide +kernel

/-- A document of 2^24 tokens, a document of one token, and the removal of the large one. -/
def absorbHistory : List IdxOp :=
  [.add { mkDoc "1" ["a"] with tokenLen := 2 ^ 24 } true, .add (mkDoc "2" ["b"]) true,
   .remove (str "1") true, .flush true]

/-- The total tokens and the BM25 value of the only document that remains. -/
def absorbResult (r : Option Indexer) (look : Indexer → Option (List IndexedDoc × Nat)) :
    Option (Int × Rat × List Rat) :=
  r.bind (fun s => (look s).map (fun x => (s.numDocs, s.totalTokenLen, x.1.map (·.bm25))))

/-- **C78** refuted for larger indexes: the addition of the second document is lost in the rounding, so
after the first one has been removed the index believes that its only document has no tokens,
and gives it the BM25 value 0 instead of a positive one. -/
theorem C78_refuted :
    (∀ op ∈ absorbHistory, OpOk op) ∧
    absorbResult ((Indexer.init (smallOpts .locs 10)).runF f32 insSort absorbHistory)
      (fun s => s.lookupF f32 (fun n m => f32 (n / m + 1)) [str "b"] [] none false) =
      some (1, 0, [0]) ∧
    absorbResult ((Indexer.init (smallOpts .locs 10)).run insSort absorbHistory)
      (fun s => s.lookup (fun x => x) [str "b"] [] none false) = some (1, 1, [2]) := by
  refine ⟨by decide +kernel, by decide +kernel, by decide +kernel⟩

/-- The sum of token lengths, rounded after every addition. -/
def roundedSum (rnd : Rat → Rat) (x : Rat) (docs : List DocIndex) : Rat :=
  docs.foldl (fun t d => rnd (t + d.tokenLen)) x

theorem addOneDocF_total {rnd : Rat → Rat} {s s' : Indexer} {ptrs ptrs' : GoMap Nat} {doc : DocIndex}
    (hst : s.docsState.get doc.docId ≠ some 1) (hl : doc.tokenLen ≠ 0)
    (h : addOneDocF rnd s ptrs doc = some (s', ptrs')) :
    s'.totalTokenLen = rnd (s.totalTokenLen + doc.tokenLen) ∧ s'.numDocs = s.numDocs + 1 ∧
      s'.docsState = s.docsState.set doc.docId 0 := by
  unfold addOneDocF at h
  rw [if_neg hst] at h
  simp only [ne_eq, hl, not_false_eq_true, if_true, bind, pure, Option.bind_eq_some_iff,
    Option.some.injEq, Prod.mk.injEq] at h
  obtain ⟨r, _, h1, _⟩ := h
  rw [← h1]
  exact ⟨rfl, rfl, rfl⟩

theorem addDocsLoopF_total {rnd : Rat → Rat} (docs : List DocIndex) : ∀ (s s' : Indexer) (ptrs : GoMap Nat),
    (docs.map (·.docId)).Nodup → (∀ x ∈ docs, x.tokenLen ≠ 0 ∧ s.docsState.get x.docId ≠ some 1) →
    addDocsLoopF rnd docs s ptrs = some s' →
    s'.totalTokenLen = roundedSum rnd s.totalTokenLen docs ∧ s'.numDocs = s.numDocs + docs.length := by
  induction docs with
  | nil => intro s s' ptrs _ _ h; simp only [addDocsLoopF, Option.some.injEq] at h; simp [h, roundedSum]
  | cons doc rest ih =>
    intro s s' ptrs hnd hok h
    have hone : ∀ r, addOneDocF rnd s ptrs doc = some r → addDocsLoopF rnd rest r.1 r.2 = some s' →
        s'.totalTokenLen = roundedSum rnd s.totalTokenLen (doc :: rest) ∧
          s'.numDocs = s.numDocs + (doc :: rest).length := by
      intro r h1 h2
      obtain ⟨t1, t2, t3⟩ := addOneDocF_total (s' := r.1) (ptrs' := r.2) (hok doc (by simp)).2
        (hok doc (by simp)).1 h1
      simp only [List.map_cons, List.nodup_cons] at hnd
      obtain ⟨u1, u2⟩ := ih r.1 s' r.2 hnd.2 (fun x hx => ⟨(hok x (by simp [hx])).1, by
        rw [t3, GoMap.get_set]
        have : x.docId ≠ doc.docId := fun e => hnd.1 (by rw [← e]; exact List.mem_map_of_mem hx)
        rw [if_neg this]
        exact (hok x (by simp [hx])).2⟩) h2
      refine ⟨by rw [u1, t1]; rfl, ?_⟩
      rw [u2, t2]; simp only [List.length_cons]; push_cast; ring
    cases rest with
    | nil =>
      simp only [addDocsLoopF, bind, Option.bind_eq_some_iff] at h
      obtain ⟨r, h1, h2⟩ := h
      exact hone r h1 (by simpa [addDocsLoopF] using h2)
    | cons next rest' =>
      have hne : doc.docId ≠ next.docId := by
        simp only [List.map_cons, List.nodup_cons, List.mem_cons, not_or] at hnd
        exact hnd.1.1
      simp only [addDocsLoopF, if_neg hne, bind, Option.bind_eq_some_iff] at h
      obtain ⟨r, h1, h2⟩ := h
      exact hone r h1 h2

theorem roundedSum_ones (docs : List DocIndex) (h1 : ∀ x ∈ docs, x.tokenLen = 1) : ∀ n : Nat, n ≤ 2 ^ 24 →
    roundedSum f32 n docs = ((min (n + docs.length) (2 ^ 24) : Nat) : Rat) := by
  induction docs with
  | nil => intro n hn; simp only [roundedSum, List.foldl_nil, List.length_nil, Nat.add_zero, Nat.min_eq_left hn]
  | cons doc rest ih =>
    intro n hn
    have hstep : f32 ((n : Rat) + doc.tokenLen) = ((min (n + 1) (2 ^ 24) : Nat) : Rat) := by
      rw [h1 doc (by simp)]
      by_cases hlt : n < 2 ^ 24
      · rw [Nat.min_eq_left (by omega)]
        have := f32_int ((n : Int) + 1) (by rw [abs_of_nonneg (by positivity)]; exact_mod_cast hlt)
        push_cast at this ⊢
        exact this
      · have : n = 2 ^ 24 := by omega
        subst this
        rw [Nat.min_eq_right (by omega)]
        push_cast
        exact f32_absorbs
    show roundedSum f32 (f32 ((n : Rat) + doc.tokenLen)) rest = _
    rw [hstep, ih (fun x hx => h1 x (by simp [hx])) _ (Nat.min_le_right _ _)]
    congr 1
    simp only [List.length_cons]
    omega

/-- **C78** refuted in general: however many documents of one token are added to an empty
index, the index counts all documents but at most 2^24 tokens, so the average length it uses tends to
zero. -/
theorem C78_absorption (o : IndexerOpts) (docs : List DocIndex) (hnd : (docs.map (·.docId)).Nodup)
    (h1 : ∀ x ∈ docs, x.tokenLen = 1) (s : Indexer) (h : (Indexer.init o).addDocsF f32 docs = some s) :
    s.numDocs = docs.length ∧ s.totalTokenLen = ((min docs.length (2 ^ 24) : Nat) : Rat) := by
  obtain ⟨a, b⟩ := addDocsLoopF_total docs (Indexer.init o) s .empty hnd (fun x hx => ⟨by
    rw [h1 x hx]; simp, by simp [Indexer.init]⟩) h
  refine ⟨by rw [b]; simp [Indexer.init], ?_⟩
  rw [a]
  have := roundedSum_ones docs h1 0 (by omega)
  simpa [Indexer.init] using this

/-- The hypotheses of the theorems above are met: lengths, totals, a non-trivial state. -/
example : ∀ op ∈ demoHistory, LenOk op := by
  intro op hop
  simp only [demoHistory, List.mem_cons, List.not_mem_nil, or_false] at hop
  rcases hop with rfl | rfl | rfl | rfl | rfl | rfl <;>
    first
    | exact ⟨2, rfl⟩
    | exact ⟨1, rfl⟩
    | trivial

theorem demo_totals : TotalsUpTo (2 ^ 24) insSort (smallOpts .locs 10) demoHistory := by
  intro i t ht
  have key : ∀ j ≤ 6, (((Indexer.init (smallOpts .locs 10)).run insSort (demoHistory.take j)).map
      (fun s => decide (s.totalTokenLen ≤ (2 ^ 24 : Rat)))) = some true := by decide +kernel
  have hj : demoHistory.take i = demoHistory.take (min i 6) := by
    rw [← List.take_take]; rfl
  rw [hj] at ht
  have := key (min i 6) (Nat.min_le_right _ _)
  rw [ht] at this
  simp only [Option.map_some, Option.some.injEq, decide_eq_true_eq] at this
  exact_mod_cast this

example : ((Indexer.init (smallOpts .locs 10)).runF f32 insSort demoHistory).map
    (fun s => (s.numDocs, s.totalTokenLen)) = some (2, 4) := by decide +kernel

example : ((Indexer.init (smallOpts .locs 10)).addDocsF f32
    [mkDoc "1" ["a"], mkDoc "2" ["b"], mkDoc "3" ["a"]]).map (fun s => (s.numDocs, s.totalTokenLen)) =
    some (3, 3) := by decide +kernel

/-! ## C79 -/

/-- The relative error of `k` roundings. -/
theorem near_f32 {k : Nat} (hk : k ≤ 2 ^ 23) {x y : Rat} (h : Near (2 ^ 24 / (2 ^ 24 - 1)) k x y) :
    |x - y| ≤ k / 2 ^ 23 * y := by
  obtain ⟨hx, hy, h1, h2⟩ := h
  have hb : (1 : Rat) - k / 2 ^ 24 ≤ ((2 ^ 24 - 1) / 2 ^ 24 : Rat) ^ k := by
    have := one_add_mul_le_pow (a := (-1 / 2 ^ 24 : Rat)) (by norm_num) k
    have e : (1 : Rat) + -1 / 2 ^ 24 = (2 ^ 24 - 1) / 2 ^ 24 := by norm_num
    rw [e] at this
    refine le_trans (le_of_eq ?_) this
    ring
  have hinv : ((2 ^ 24 - 1) / 2 ^ 24 : Rat) ^ k * (2 ^ 24 / (2 ^ 24 - 1) : Rat) ^ k = 1 := by
    rw [← mul_pow]
    have : ((2 ^ 24 - 1) / 2 ^ 24 : Rat) * (2 ^ 24 / (2 ^ 24 - 1)) = 1 := by norm_num
    rw [this, one_pow]
  have hqpos : (0 : Rat) < (2 ^ 24 / (2 ^ 24 - 1)) ^ k := by positivity
  set q : Rat := (2 ^ 24 / (2 ^ 24 - 1)) ^ k
  set p : Rat := ((2 ^ 24 - 1) / 2 ^ 24) ^ k
  have hk' : (k : Rat) ≤ 2 ^ 23 := by exact_mod_cast hk
  have hk0 : (0 : Rat) ≤ k := by positivity
  have hp : 0 < p := by positivity
  -- `q ≤ 1 + k / 2^23`
  have hq : q ≤ 1 + k / 2 ^ 23 := by
    have h3 : (1 : Rat) ≤ (1 + k / 2 ^ 23) * (1 - k / 2 ^ 24) := by
      have : (1 + (k : Rat) / 2 ^ 23) * (1 - k / 2 ^ 24) = 1 + k / 2 ^ 24 * (1 - k / 2 ^ 23) := by ring
      rw [this]
      have : (k : Rat) / 2 ^ 23 ≤ 1 := by rw [div_le_one (by norm_num)]; exact hk'
      have : 0 ≤ (k : Rat) / 2 ^ 24 * (1 - k / 2 ^ 23) := mul_nonneg (by positivity) (by linarith)
      linarith
    have h4 : (1 + (k : Rat) / 2 ^ 23) * (1 - k / 2 ^ 24) ≤ (1 + k / 2 ^ 23) * p :=
      mul_le_mul_of_nonneg_left hb (by positivity)
    have h5 : (p * q) * 1 ≤ (1 + k / 2 ^ 23) * p := by rw [hinv]; linarith
    by_contra hc
    have : (1 + (k : Rat) / 2 ^ 23) * p < q * p := mul_lt_mul_of_pos_right (lt_of_not_ge hc) hp
    linarith
  rw [abs_le]
  constructor
  · -- `x ≥ y p`
    have h6 : y * p ≤ x := by
      have : y * p ≤ x * q * p := mul_le_mul_of_nonneg_right h2 hp.le
      have e : x * q * p = x := by rw [mul_assoc, mul_comm q p, hinv, mul_one]
      linarith
    have h7 : y * (1 - k / 2 ^ 24) ≤ y * p := mul_le_mul_of_nonneg_left hb hy
    have h8 : 0 ≤ y * ((k : Rat) / 2 ^ 24) := by positivity
    have e2 : (k : Rat) / 2 ^ 23 * y = 2 * (y * (k / 2 ^ 24)) := by ring
    rw [e2]
    linarith
  · have : y * q ≤ y * (1 + k / 2 ^ 23) := mul_le_mul_of_nonneg_left hq hy
    linarith

/-- The answers of the float32 program and of the exact one: both crash, or the same documents in the
same order, whose BM25 values differ by at most the fraction `e`. -/
def CloseAnswers (e : Rat) (x y : Option (List IndexedDoc × Nat)) : Prop :=
  (x = none ∧ y = none) ∨
  ∃ dx dy n, x = some (dx, n) ∧ y = some (dy, n) ∧
    List.Forall₂ (fun a b => a = { b with bm25 := a.bm25 } ∧ 0 ≤ b.bm25 ∧ |a.bm25 - b.bm25| ≤ e * b.bm25) dx dy

/-- **C79** (partial: as long as the index never holds more than 2^24 tokens). After every history and
for every request, the float32 program gives the answer of the exact one, and every BM25
value has a relative error of at most `(ki + 11 + number of tokens) / 2^23`, where `ki` bounds the error of
the logarithms. -/
theorem C79_close_partial {so : Sorter} (hso : SortOk so) (o : IndexerOpts) (h : List IdxOp)
    (hok : ∀ op ∈ h, OpOk op) (hlen : ∀ op ∈ h, LenOk op) (hb : TotalsUpTo (2 ^ 24) so o h)
    (hpar : ∀ p, o.bm25 = some p → 0 ≤ p.k1 ∧ 0 ≤ p.b ∧ p.b ≤ 1)
    (log2 : Rat → Rat) (idf : Int → Nat → Rat) (ki : Nat)
    (hidf : ∀ n m : Nat, 0 < m → Near (2 ^ 24 / (2 ^ 24 - 1)) ki (idf n m) (log2 (n / (m : Rat) + 1)))
    (tokens labels : List Str) (hk : ki + 11 + tokens.length ≤ 2 ^ 23) (docIds : Option (List Str))
    (countOnly : Bool) (logic : Option Logic) :
    CloseAnswers (((ki + 11 + tokens.length : Nat) : Rat) / 2 ^ 23)
      (runLookupF f32 idf so o h tokens labels docIds countOnly logic)
      (runLookupX log2 so o h tokens labels docIds countOnly logic) := by
  unfold runLookupF runLookupX
  rcases run_sim (rnd := f32) so h (Indexer.init o) (Indexer.init o) (SameBut.refl _) with
    ⟨h1, h2⟩ | ⟨a, b, h1, h2, _⟩
  · rw [h1, h2]; exact .inl ⟨rfl, rfl⟩
  obtain ⟨hF, known, hinv, hnat⟩ := runF_exact f32_exactUpTo hso o h hok hlen hb a h1
  have hopts := (run_inv hso o h hok a h1).1
  rw [h1, hF]
  simp only [Option.bind_some]
  obtain ⟨t1, t2⟩ := hinv.core.isNat hnat.stored
  have hn0 : 0 ≤ a.numDocs := by rw [hinv.core.num]; positivity
  obtain ⟨nn, hnn⟩ := Int.eq_ofNat_of_zero_le hn0
  have hbm : a.opts.bm25 = o.bm25 := by
    rw [hopts]; unfold IndexerOpts.init; split <;> rfl
  rcases lookupF_near (q := 2 ^ 24 / (2 ^ 24 - 1)) (by norm_num) f32_roundsBy (ki := ki) (idf := idf)
    (log2 := log2) (s := a) (fun m hm => by
      rw [hnn]; simpa only [Int.ofNat_eq_natCast, Int.cast_natCast] using hidf nn m hm)
    (fun p hp => hpar p (by rw [← hbm]; exact hp)) (fun d v hv => (t2 d v hv).nonneg) t1.nonneg hn0
    tokens labels docIds countOnly logic with h3 | ⟨dx, dy, n, h3, h4, h5⟩
  · exact .inl h3
  · refine .inr ⟨dx, dy, n, h3, h4, ?_⟩
    refine h5.imp ?_
    intro x y hxy
    exact ⟨hxy.1, hxy.2.2.1, near_f32 hk hxy.2⟩

/-- **C79** Consequence for the order: of two documents of an answer, the one whose exact value is larger
by more than the error also has the larger computed value. -/
theorem C79_order_partial {e : Rat} {x y : List IndexedDoc × Nat} (h : CloseAnswers e (some x) (some y))
    (i j : Nat) (hi : i < x.1.length) (hj : j < x.1.length) (hi' : i < y.1.length) (hj' : j < y.1.length)
    (hlt : y.1[i].bm25 * (1 + e) < y.1[j].bm25 * (1 - e)) :
    x.1[i].bm25 < x.1[j].bm25 := by
  rcases h with ⟨h, _⟩ | ⟨dx, dy, n, h1, h2, h3⟩
  · simp at h
  rw [Option.some.injEq] at h1 h2
  subst h1 h2
  have hg := (List.forall₂_iff_get.1 h3).2
  have a := (hg i hi hi').2.2
  have b := (hg j hj hj').2.2
  simp only [List.get_eq_getElem] at a b
  rw [abs_le] at a b
  simp only at hlt ⊢
  nlinarith [a.2, b.1]

/-- With a request of at most 20 tokens and logarithms computed with at most 3 roundings the error is
less than 1/200000. -/
example (m : Nat) (h : m ≤ 20) : ((3 + 11 + m : Nat) : Rat) / 2 ^ 23 < 1 / 200000 := by
  have : ((3 + 11 + m : Nat) : Rat) ≤ 34 := by exact_mod_cast (by omega : 3 + 11 + m ≤ 34)
  rw [div_lt_div_iff₀ (by norm_num) (by norm_num)]
  linarith

/-- The hypothesis about the logarithms is met by `log2 = id` (which keeps the example computable)
rounded once. -/
example (n m : Nat) (_ : 0 < m) :
    Near (2 ^ 24 / (2 ^ 24 - 1)) 1 (f32 (n / (m : Rat) + 1)) (n / (m : Rat) + 1) :=
  f32_roundsBy _ (by positivity)

/-- Two documents whose exact values are 20/9 and 20/11 (with `log2 = id`). -/
example : ((runLookupF f32 (fun n m => f32 (n / m + 1)) insSort (smallOpts .locs 10)
      [.add (mkDoc "1" ["a", "b", "c"]) false, .add (mkDoc "2" ["a", "b"]) true]
      [str "a"] [] none false none).map (fun r => r.1.map (fun d => (d.docId, d.bm25)))) =
    some [(str "2", 9320675 / 4194304), (str "1", 15252015 / 8388608)] := by decide +kernel

end Riot
