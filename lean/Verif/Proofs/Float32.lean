import Verif.Model.Float32
import Mathlib.Tactic.Linarith
import Mathlib.Tactic.Positivity
import Mathlib.Tactic.FieldSimp
import Mathlib.Tactic.Ring
import Mathlib.Tactic.NormNum

/-!
# float32 rounding
-/

namespace Riot

theorem roundEven_int (n : Int) : roundEven (n : Rat) = n := by
  simp [roundEven]

theorem roundEven_error (q : Rat) : |(roundEven q : Rat) - q| ≤ 1 / 2 := by
  have h1 := Int.floor_le q
  have h2 := Int.lt_floor_add_one q
  unfold roundEven
  rw [abs_le]
  split
  · constructor <;> linarith
  split
  · push_cast; constructor <;> linarith
  have h3 : q - ⌊q⌋ = 1 / 2 := by linarith
  split
  · constructor <;> linarith
  · push_cast; constructor <;> linarith

theorem ulp32_pos (x : Rat) : 0 < ulp32 x := by unfold ulp32; exact zpow_pos (by norm_num) _

/-- Half a unit in the last place. -/
theorem f32_ulp (x : Rat) : |f32 x - x| ≤ ulp32 x / 2 := by
  have hu := ulp32_pos x
  have h := roundEven_error (x / ulp32 x)
  have he : f32 x - x = ((roundEven (x / ulp32 x) : Rat) - x / ulp32 x) * ulp32 x := by
    unfold f32; field_simp
  rw [he, abs_mul, abs_of_pos hu]
  nlinarith

/-- The relative error of float32 rounding is at most 2⁻²⁴. -/
theorem f32_error (x : Rat) : |f32 x - x| ≤ (1 / 2 ^ 24) * |x| := by
  by_cases hx : x = 0
  · subst hx
    have : f32 0 = 0 := by
      unfold f32
      have := roundEven_int 0
      simp at this
      simp [this]
    rw [this]; simp
  · have h := f32_ulp x
    have hpos : 0 < |x| := abs_pos.2 hx
    have hl := Int.zpow_log_le_self (b := 2) (r := |x|) (by norm_num) hpos
    have : ulp32 x = (2 : Rat) ^ (Int.log 2 |x|) / 2 ^ 23 := by
      unfold ulp32
      rw [zpow_sub₀ (by norm_num)]
      norm_cast
    rw [this] at h
    norm_cast at hl
    calc |f32 x - x| ≤ (2 : Rat) ^ (Int.log 2 |x|) / 2 ^ 23 / 2 := h
      _ = (1 / 2 ^ 24) * (2 : Rat) ^ (Int.log 2 |x|) := by ring
      _ ≤ _ := by
        apply mul_le_mul_of_nonneg_left _ (by positivity)
        exact_mod_cast hl

/-- Integers up to 2²⁴ are exact. -/
theorem f32_int (n : Int) (h : |n| ≤ 2 ^ 24) : f32 (n : Rat) = n := by
  by_cases h0 : n = 0
  · subst h0
    have := roundEven_int 0
    simp at this
    simp [f32, this]
  -- the quotient is an integer
  have hpos : (0 : Rat) < |(n : Rat)| := abs_pos.2 (by exact_mod_cast h0)
  obtain ⟨m, hm⟩ : ∃ m : Int, (n : Rat) / ulp32 n = m := by
    have hlog : Int.log 2 |(n : Rat)| ≤ 24 := by
      have h2 : |(n : Rat)| ≤ 2 ^ 24 := by exact_mod_cast h
      by_contra hc
      have hl := Int.zpow_log_le_self (b := 2) (r := |(n : Rat)|) (by norm_num) hpos
      have : ((2 : Nat) : Rat) ^ (25 : Int) ≤ ((2 : Nat) : Rat) ^ (Int.log 2 |(n : Rat)|) :=
        zpow_le_zpow_right₀ (by norm_num) (by omega)
      have h3 : ((2 : Nat) : Rat) ^ (25 : Int) ≤ 2 ^ 24 := this.trans (hl.trans h2)
      norm_num at h3
    by_cases h24 : Int.log 2 |(n : Rat)| = 24
    · -- then |n| = 2^24
      have hl := Int.zpow_log_le_self (b := 2) (r := |(n : Rat)|) (by norm_num) hpos
      rw [h24] at hl
      have h2 : |(n : Rat)| ≤ 2 ^ 24 := by exact_mod_cast h
      have h3 : |(n : Rat)| = 2 ^ 24 := le_antisymm h2 (by norm_num at hl ⊢; exact hl)
      have h4 : ulp32 (n : Rat) = 2 := by unfold ulp32; rw [h24]; norm_num
      rcases abs_eq (by norm_num : (0:Rat) ≤ 2 ^ 24) |>.1 h3 with e | e
      · exact ⟨2 ^ 23, by rw [h4, e]; norm_num⟩
      · exact ⟨-2 ^ 23, by rw [h4, e]; norm_num⟩
    · refine ⟨n * 2 ^ (23 - Int.log 2 |(n : Rat)|).toNat, ?_⟩
      have hk : ((23 - Int.log 2 |(n : Rat)|).toNat : Int) = 23 - Int.log 2 |(n : Rat)| :=
        Int.toNat_of_nonneg (by omega)
      unfold ulp32
      rw [div_eq_mul_inv, ← zpow_neg]
      push_cast
      congr 1
      rw [← zpow_natCast, hk]
      congr 1; ring
  have hu := ulp32_pos (n : Rat)
  unfold f32
  rw [hm, roundEven_int, ← hm]
  field_simp

/-- Adding one to 2²⁴ is lost. -/
theorem f32_absorbs : f32 (2 ^ 24 + 1) = 2 ^ 24 := by
  have hlog : Int.log 2 |((2 ^ 24 + 1 : Rat))| = 24 := by
    have : |((2 ^ 24 + 1 : Rat))| = ((2 ^ 24 + 1 : Nat) : Rat) := by norm_num
    rw [this, Int.log_natCast]
    have : Nat.log 2 (2 ^ 24 + 1) = 24 := by
      rw [Nat.log_eq_iff (by norm_num)]
      norm_num
    rw [this]; rfl
  have h4 : ulp32 (2 ^ 24 + 1) = 2 := by unfold ulp32; rw [hlog]; norm_num
  unfold f32
  rw [h4]
  have hf : ⌊((2 : Rat) ^ 24 + 1) / 2⌋ = 2 ^ 23 := by rw [Int.floor_eq_iff]; norm_num
  have : roundEven ((2 ^ 24 + 1) / 2) = 2 ^ 23 := by
    unfold roundEven
    rw [hf]; norm_num
  rw [this]; norm_num

end Riot
