import Verif.Props.RawA1

/-! Helper lemmas for `Verif/Props/RawA1More.lean`. -/
namespace Fp
open Spec

theorem words32_length (b : Bytes) : (words32 b).length = b.length / 4 := by
  induction b using words32.induct with
  | case1 a b c d rest ih => simp only [words32, List.length_cons, ih]; omega
  | case2 b h =>
    rw [words32]
    · rcases b with _ | ⟨x, _ | ⟨y, _ | ⟨z, _ | ⟨w, b⟩⟩⟩⟩
      · rfl
      · simp
      · simp
      · simp
      · exact absurd rfl (h x y z w b)
    · exact h

theorem reshape2_even {α : Type} (l : List α) (h : l.length % 2 = 0) : ∃ r, reshape2 l = .ok r := by
  induction l using reshape2.induct with
  | case1 => exact ⟨_, rfl⟩
  | case2 x => simp at h
  | case3 a b rest ih =>
    obtain ⟨r, hr⟩ := ih (by simp at h; omega)
    exact ⟨(a, b) :: r, by simp [reshape2, hr, bind, Except.bind, pure, Except.pure]⟩

theorem reshape2_odd {α : Type} (l : List α) (h : l.length % 2 = 1) : reshape2 l = .error .valueError := by
  induction l using reshape2.induct with
  | case1 => simp at h
  | case2 x => rfl
  | case3 a b rest ih =>
    have := ih (by simp at h; omega)
    simp [reshape2, this, bind, Except.bind]

theorem decodeBuffer_whole (fw : Nat) (legacy : Bool) (res : Tsres) (frac : Bool) (b : Bytes) (h : b.length % 8 = 0) :
    ∃ r, decodeBuffer fw legacy res frac b = .ok r := by
  obtain ⟨r, hr⟩ := reshape2_even (words32 b) (by rw [words32_length]; omega)
  refine ⟨r.map (decodeRow fw legacy res frac), ?_⟩
  unfold decodeBuffer frombuffer32
  rw [if_pos (by omega)]
  simp [hr, bind, Except.bind, pure, Except.pure]

theorem decodeBuffer_broken (fw : Nat) (legacy : Bool) (res : Tsres) (frac : Bool) (b : Bytes) (h : b.length % 8 ≠ 0) :
    decodeBuffer fw legacy res frac b = .error .valueError := by
  unfold decodeBuffer frombuffer32
  by_cases h4 : b.length % 4 = 0
  · rw [if_pos h4]
    simp [reshape2_odd (words32 b) (by rw [words32_length]; omega), bind, Except.bind]
  · rw [if_neg h4]
    simp [bind, Except.bind]

theorem streamLoop_broken (fw : Nat) (legacy : Bool) (res : Tsres) (frac : Bool) (b : Nat) (hb : 0 < b) (n : Nat) (file : Bytes)
    (hn : file.length = n) (h : file.length % 8 ≠ 0) :
    streamLoop (decodeBuffer fw legacy res frac) (b * 8) file =
      ((streamLoop (decodeBuffer fw legacy res frac) (b * 8) (file.take (file.length / (b * 8) * (b * 8)))).1, some .valueError) := by
  induction n using Nat.strong_induction_on generalizing file with
  | _ n ih =>
    have hne : file ≠ [] := by rintro rfl; simp at h
    have hpos : 0 < file.length := List.length_pos_iff.mpr hne
    rw [streamLoop, dif_neg (by rw [List.take_eq_nil_iff]; push Not; exact ⟨by omega, hne⟩)]
    by_cases hs : file.length < b * 8
    · rw [List.take_of_length_le (by omega), decodeBuffer_broken fw legacy res frac file h, Nat.div_eq_of_lt hs, Nat.zero_mul, List.take_zero]
      simp only
      rw [streamLoop, dif_pos (by simp)]
    · obtain ⟨r, hr⟩ := decodeBuffer_whole fw legacy res frac (file.take (b * 8)) (by rw [List.length_take]; omega)
      have hk : file.length / (b * 8) = (file.length - b * 8) / (b * 8) + 1 := by
        rw [Nat.div_eq_sub_div (by omega) (by omega)]
      have hq : (file.length - b * 8) / (b * 8) * (b * 8) ≤ file.length - b * 8 := Nat.div_mul_le_self _ _
      have e1 : (file.take (file.length / (b * 8) * (b * 8))).take (b * 8) = file.take (b * 8) := by
        rw [List.take_take]
        congr 1
        rw [hk]
        apply Nat.min_eq_left
        rw [Nat.add_mul]; omega
      have e2 : (file.take (file.length / (b * 8) * (b * 8))).drop (b * 8) =
          (file.drop (b * 8)).take ((file.drop (b * 8)).length / (b * 8) * (b * 8)) := by
        rw [List.drop_take, List.length_drop, hk, Nat.add_mul, Nat.one_mul, Nat.add_sub_cancel]
      rw [hr]
      simp only
      rw [ih (file.length - b * 8) (by omega) (file.drop (b * 8)) (by rw [List.length_drop]) (by rw [List.length_drop]; omega)]
      conv_rhs => rw [streamLoop, dif_neg (by rw [e1, List.take_eq_nil_iff]; push Not; exact ⟨by omega, hne⟩), e1, hr]
      simp only
      rw [e2]

end Fp
