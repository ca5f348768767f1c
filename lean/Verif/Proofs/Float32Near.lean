import Verif.Spec.Float32
import Verif.Proofs.Float32
import Verif.Proofs.Lookup

/-!
# Error bounds
-/

namespace Riot

variable {q : Rat} {rnd : Rat → Rat}

theorem Near.refl (q : Rat) {x : Rat} (h : 0 ≤ x) : Near q 0 x x := ⟨h, h, by simp, by simp⟩

theorem Near.mono (hq : 1 ≤ q) {k l : Nat} (hkl : k ≤ l) {x y : Rat} (h : Near q k x y) :
    Near q l x y := by
  have : q ^ k ≤ q ^ l := pow_le_pow_right₀ hq hkl
  obtain ⟨a, b, c, d⟩ := h
  exact ⟨a, b, c.trans (mul_le_mul_of_nonneg_left this b), d.trans (mul_le_mul_of_nonneg_left this a)⟩

theorem Near.trans (hq : 1 ≤ q) {k l : Nat} {x y z : Rat} (h1 : Near q k x y) (h2 : Near q l y z) :
    Near q (k + l) x z := by
  obtain ⟨a, b, c, d⟩ := h1
  obtain ⟨_, b', c', d'⟩ := h2
  have hk : 0 ≤ q ^ k := by positivity
  have hl : 0 ≤ q ^ l := by positivity
  refine ⟨a, b', ?_, ?_⟩
  · calc x ≤ y * q ^ k := c
      _ ≤ z * q ^ l * q ^ k := mul_le_mul_of_nonneg_right c' hk
      _ = z * q ^ (k + l) := by rw [pow_add]; ring
  · calc z ≤ y * q ^ l := d'
      _ ≤ x * q ^ k * q ^ l := mul_le_mul_of_nonneg_right d hl
      _ = x * q ^ (k + l) := by rw [pow_add]; ring

theorem Near.rounded (hq : 1 ≤ q) (hr : RoundsBy q rnd) {k : Nat} {x y : Rat} (h : Near q k x y) :
    Near q (k + 1) (rnd x) y := by
  rw [Nat.add_comm]
  exact (hr x h.1).trans hq h

theorem Near.add {k : Nat} {x y x' y' : Rat} (h : Near q k x y) (h' : Near q k x' y') :
    Near q k (x + x') (y + y') := by
  obtain ⟨a, b, c, d⟩ := h
  obtain ⟨a', b', c', d'⟩ := h'
  exact ⟨by positivity, by positivity, by linarith, by linarith⟩

theorem Near.mul {k l : Nat} {x y x' y' : Rat} (h : Near q k x y) (h' : Near q l x' y') :
    Near q (k + l) (x * x') (y * y') := by
  obtain ⟨a, b, c, d⟩ := h
  obtain ⟨a', b', c', d'⟩ := h'
  refine ⟨by positivity, by positivity, ?_, ?_⟩
  · calc x * x' ≤ (y * q ^ k) * (y' * q ^ l) := mul_le_mul c c' a' (a.trans c)
      _ = _ := by rw [pow_add]; ring
  · calc y * y' ≤ (x * q ^ k) * (x' * q ^ l) := mul_le_mul d d' b' (b.trans d)
      _ = _ := by rw [pow_add]; ring

theorem Near.div (hq : 1 ≤ q) {k l : Nat} {x y x' y' : Rat} (h : Near q k x y) (h' : Near q l x' y')
    (hx : 0 < x') (hy : 0 < y') : Near q (k + l) (x / x') (y / y') := by
  obtain ⟨a, b, c, d⟩ := h
  obtain ⟨a', b', c', d'⟩ := h'
  have hk : 0 < q ^ k := by positivity
  have hl : 0 < q ^ l := by positivity
  refine ⟨by positivity, by positivity, ?_, ?_⟩
  · rw [div_le_iff₀ hx]
    have e : y / y' * q ^ (k + l) * x' = (y * q ^ k) * ((x' * q ^ l) / y') := by rw [pow_add]; ring
    rw [e]
    have : 1 ≤ (x' * q ^ l) / y' := by rw [le_div_iff₀ hy]; linarith
    nlinarith
  · rw [div_le_iff₀ hy]
    have e : x / x' * q ^ (k + l) * y' = (x * q ^ k) * ((y' * q ^ l) / x') := by rw [pow_add]; ring
    rw [e]
    have : 1 ≤ (y' * q ^ l) / x' := by rw [le_div_iff₀ hx]; linarith
    nlinarith

theorem Near.pos (hq : 1 ≤ q) {k : Nat} {x y : Rat} (h : Near q k x y) : 0 < x ↔ 0 < y := by
  obtain ⟨a, b, c, d⟩ := h
  have hk : 0 < q ^ k := by positivity
  constructor
  · intro hx
    rcases lt_or_eq_of_le b with h | h
    · exact h
    · rw [← h, zero_mul] at c; linarith
  · intro hy
    rcases lt_or_eq_of_le a with h | h
    · exact h
    · rw [← h, zero_mul] at d; linarith

/-- float32 rounding changes nothing by more than 2²⁴ / (2²⁴ - 1). -/
theorem f32_roundsBy : RoundsBy (2 ^ 24 / (2 ^ 24 - 1)) f32 := by
  intro x hx
  have h := f32_error x
  rw [abs_of_nonneg hx, abs_le] at h
  obtain ⟨h1, h2⟩ := h
  norm_num at h1 h2
  refine ⟨?_, hx, ?_, ?_⟩
  · nlinarith
  · norm_num; nlinarith
  · norm_num; nlinarith

theorem f32_exactUpTo : ExactUpTo (2 ^ 24) f32 := f32_int

/-- One term of the sum. -/
theorem bm25TermF_near (hq : 1 ≤ q) (hr : RoundsBy q rnd) {ki ka : Nat} {idf idf' f k1 b d avg avg' : Rat}
    (hidf : Near q ki idf' idf) (hf : 0 < f) (hk1 : 0 ≤ k1) (hb0 : 0 ≤ b) (hb1 : b ≤ 1) (hd : 0 ≤ d)
    (havg : Near q ka avg' avg) (hpos : 0 < avg) :
    Near q (ki + ka + 9) (bm25TermF rnd idf' f k1 b d avg')
      (idf * f * (k1 + 1) / (f + k1 * (1 - b + b * d / avg))) := by
  have hpos' : 0 < avg' := (havg.pos hq).2 hpos
  unfold bm25TermF
  have n1 : Near q (ki + 1) (rnd (idf' * f)) (idf * f) := (hidf.mul (Near.refl q hf.le)).rounded hq hr
  have n2 : Near q 1 (rnd (k1 + 1)) (k1 + 1) := (Near.refl q (by linarith : 0 ≤ k1 + 1)).rounded hq hr
  have n3 := (n1.mul n2).rounded hq hr
  have d1 : Near q 1 (rnd (1 - b)) (1 - b) := (Near.refl q (by linarith : 0 ≤ 1 - b)).rounded hq hr
  have d2 : Near q 1 (rnd (b * d)) (b * d) := (Near.refl q (by positivity : 0 ≤ b * d)).rounded hq hr
  have d3 := (d2.div hq havg hpos' hpos).rounded hq hr
  have d4 := ((d1.mono hq (by omega : 1 ≤ 1 + ka + 1)).add d3).rounded hq hr
  have d5 := (((Near.refl q hk1).mul d4)).rounded hq hr
  have d6 := (((Near.refl q hf.le).mono hq (Nat.zero_le _)).add d5).rounded hq hr
  have hD : 0 < f + k1 * (1 - b + b * d / avg) := by
    have : 0 ≤ b * d / avg := by positivity
    have : 0 ≤ k1 * (1 - b + b * d / avg) := mul_nonneg hk1 (by linarith)
    linarith
  have := ((n3.div hq d6 ((d6.pos hq).2 hD) hD)).rounded hq hr
  refine this.mono hq ?_
  omega

/-- The sum over the tokens. -/
theorem bm25SumF_near (hq : 1 ≤ q) (hr : RoundsBy q rnd) {ki ka : Nat} {idf : Int → Nat → Rat}
    {log2 : Rat → Rat} {o : IndexerOpts} {n : Int}
    (hidf : ∀ m : Nat, 0 < m → Near q ki (idf n m) (log2 (n / (m : Rat) + 1)))
    (hpar : ∀ p, o.bm25 = some p → 0 ≤ p.k1 ∧ 0 ≤ p.b ∧ p.b ≤ 1)
    {d avg avg' : Rat} (hd : 0 ≤ d) (havg : Near q ka avg' avg) :
    ∀ (rows : List (KeywordIndices × Nat)) (k : Nat) (acc acc' : Rat), ki + ka + 9 ≤ k →
      Near q k acc' acc →
      (bm25Sum log2 o n d avg rows = none ∧ bm25SumF rnd idf o n d avg' acc' rows = none) ∨
      ∃ v v', bm25Sum log2 o n d avg rows = some v ∧ bm25SumF rnd idf o n d avg' acc' rows = some v' ∧
        Near q (k + rows.length) v' (acc + v) := by
  intro rows
  induction rows with
  | nil =>
    intro k acc acc' _ h
    exact .inr ⟨0, acc', rfl, rfl, by simpa using h⟩
  | cons r rows ih =>
    obtain ⟨row, ptr⟩ := r
    intro k acc acc' hk h
    simp only [bm25Sum, bm25SumF, bind, Option.bind, pure]
    cases hfr : rowFrequency o.indexType row ptr with
    | none => exact .inl ⟨rfl, rfl⟩
    | some fr =>
      have hskip : ∀ (l : Nat) , k + l ≤ k + (rows.length + 1) →
          ∀ {x y}, Near q (k + l) x y → Near q (k + (rows.length + 1)) x y :=
        fun l hl _ _ hn => hn.mono hq hl
      simp only []
      cases hp : o.bm25 with
      | none =>
        simp only []
        rcases ih k acc acc' hk h with ⟨h1, h2⟩ | ⟨v, v', h1, h2, h3⟩
        · exact .inl ⟨by rw [h1], h2⟩
        · exact .inr ⟨v, v', by rw [h1], h2, by
            rw [List.length_cons]; exact hskip _ (by omega) h3⟩
      | some p =>
        obtain ⟨p1, p2, p3⟩ := hpar p hp
        have hz : avg' ≠ 0 ↔ avg ≠ 0 := by
          rw [← (lt_iff_le_and_ne.trans (by rw [ne_comm]; exact and_iff_right havg.1) :
              0 < avg' ↔ avg' ≠ 0), havg.pos hq]
          exact (lt_iff_le_and_ne.trans (by rw [ne_comm]; exact and_iff_right havg.2.1))
        simp only []
        by_cases hc : row.docIds.length > 0 ∧ fr > 0 ∧ avg ≠ 0
        · have hc' : row.docIds.length > 0 ∧ fr > 0 ∧ avg' ≠ 0 := ⟨hc.1, hc.2.1, hz.2 hc.2.2⟩
          rw [if_pos hc']
          have hpos : 0 < avg := lt_of_le_of_ne havg.2.1 (Ne.symm hc.2.2)
          have ht := bm25TermF_near hq hr (hidf row.docIds.length hc.1) hc.2.1 p1 p2 p3 hd havg hpos
          have hacc := (h.add (ht.mono hq hk)).rounded hq hr
          rcases ih (k + 1) _ _ (by omega) hacc with ⟨h1, h2⟩ | ⟨v, v', h1, h2, h3⟩
          · refine .inl ⟨?_, h2⟩
            rw [h1]
          · refine .inr ⟨_, v', by rw [h1]; simp only [if_pos hc]; rfl, h2, ?_⟩
            rw [← add_assoc]
            exact h3.mono hq (by simp only [List.length_cons]; omega)
        · have hc' : ¬ (row.docIds.length > 0 ∧ fr > 0 ∧ avg' ≠ 0) :=
            fun hx => hc ⟨hx.1, hx.2.1, hz.1 hx.2.2⟩
          rw [if_neg hc']
          rcases ih k acc acc' hk h with ⟨h1, h2⟩ | ⟨v, v', h1, h2, h3⟩
          · exact .inl ⟨by rw [h1], h2⟩
          · exact .inr ⟨v, v', by rw [h1]; simp only [if_neg hc], h2, by
              rw [List.length_cons]; exact hskip _ (by omega) h3⟩

end Riot
