import Verif.Lemmas.RawFilter

/-! Helper lemmas for `Verif/Props/RawFilter.lean`. -/
namespace Fp
open Spec

theorem fl53_w : fl 53 ((10240000000000001 : Nat) : ℚ) = 10240000000000000 := by
  rw [fl_eval 53 _ 53 (by norm_num) (by norm_num)]
  have : rne (((10240000000000001 : Nat) : ℚ) / 2 ^ ((53 : ℤ) - (((53 : ℕ) : ℤ) - 1))) = 5120000000000000 := by
    norm_num [rne]
  rw [this]; norm_num

theorem bound_w : bound .ps4 40000 = 10240000000000000 := by
  unfold bound
  have h := fl_exact 53 5120000000000000 1 (by norm_num)
  norm_num [Tsres.value] at h ⊢
  exact h

/-- The filter applied to one event. -/
def keepEvent (a : FilterArgs) (res : Tsres) (e : Num × Nat) : Bool :=
  (match a.pattern with | none => true | some pat => patKeep pat a.mask a.invert e.2) &&
    decide (InWindow res a.start a.stop e.1.cmp)

def outEvent (a : FilterArgs) (e : Num × Nat) : Num × Nat :=
  (e.1, match a.pattern with | none => e.2 | some pat => ofBits4 (patBit pat a.mask a.invert e.2))

theorem homogeneous_sub {t t' : List Num} (h : Homogeneous t) (hs : t'.Sublist t) : Homogeneous t' := by
  rcases h with h | h
  · exact Or.inl (fun x hx => h x (hs.subset hx))
  · exact Or.inr (fun x hx => h x (hs.subset hx))

theorem filterBatch_eq (a : FilterArgs) (res : Tsres) (evs : List (Num × Nat)) (hp : ∀ e ∈ evs, e.2 < 16)
    (hpat : ∀ pat, a.pattern = some pat → pat < 16) (hh : Homogeneous (evs.map Prod.fst))
    (hs : a.start.isSome ∨ a.stop.isSome → Chronological (evs.map Prod.fst)) :
    filterBatch a res evs = (evs.filter (keepEvent a res)).map (outEvent a) := by
  -- the pattern part
  have hpatt : ∃ (B : List (Num × Nat)) (out : Nat → Nat), B.Sublist evs ∧
      (match a.pattern with
        | none => (evs.map Prod.fst, evs.map Prod.snd)
        | some pat =>
          let mp := getPatternMask (evs.map Prod.snd) pat a.mask a.invert
          (select mp.1 (evs.map Prod.fst), mp.2)) = (B.map Prod.fst, B.map (fun e => out e.2)) ∧
      B = evs.filter (fun e => match a.pattern with | none => true | some pat => patKeep pat a.mask a.invert e.2) ∧
      (∀ e, outEvent a e = (e.1, out e.2)) := by
    cases hpa : a.pattern with
    | none =>
      refine ⟨evs, id, List.Sublist.refl _, rfl, ?_, ?_⟩
      · simp
      · intro e; simp [outEvent, hpa]
    | some pat =>
      refine ⟨evs.filter (fun e => patKeep pat a.mask a.invert e.2), fun x => ofBits4 (patBit pat a.mask a.invert x),
        List.filter_sublist, ?_, rfl, ?_⟩
      · simp only []
        rw [getPatternMask_eq _ pat a.mask a.invert (by
          intro x hx; obtain ⟨e, he, rfl⟩ := List.mem_map.mp hx; exact hp e he) (hpat pat hpa)]
        simp only [List.map_map]
        rw [select_map]
        congr 1
        rw [List.filter_map, List.map_map]
        rfl
      · intro e; simp [outEvent, hpa]
  obtain ⟨B, out, hsub, h1, hB, hout⟩ := hpatt
  have key : eventFilter a res (evs.map Prod.fst) (evs.map Prod.snd) =
      (if a.start.isSome ∨ a.stop.isSome then
        (select (getTimingMask (B.map Prod.fst) a.start a.stop res) (B.map Prod.fst),
          select (getTimingMask (B.map Prod.fst) a.start a.stop res) (B.map (fun e => out e.2)))
      else (B.map Prod.fst, B.map (fun e => out e.2))) := by
    have e1 : B.map Prod.fst = (B.map Prod.fst, B.map (fun e => out e.2)).1 := rfl
    have e2 : B.map (fun e => out e.2) = (B.map Prod.fst, B.map (fun e => out e.2)).2 := rfl
    rw [e2, e1, ← h1]
    rfl
  unfold filterBatch
  rw [key]
  have hh' : Homogeneous (B.map Prod.fst) := homogeneous_sub hh (hsub.map Prod.fst)
  have hs' : a.start.isSome ∨ a.stop.isSome → Chronological (B.map Prod.fst) := fun h => (hs h).sublist (hsub.map Prod.fst)
  have hfilt : (evs.filter (keepEvent a res)) =
      B.filter (fun e => decide (InWindow res a.start a.stop e.1.cmp)) := by
    rw [hB, List.filter_filter]
    apply List.filter_congr
    intro e _
    unfold keepEvent
    rw [Bool.and_comm]
  rw [hfilt]
  split
  · rename_i hyes
    simp only []
    rw [getTimingMask_eq _ hh' (hs' hyes), List.map_map, select_map, select_map, List.zip_map']
    apply List.map_congr_left
    intro e _
    rw [hout]
  · rename_i hno
    simp only [not_or, Option.not_isSome_iff_eq_none] at hno
    have : B.filter (fun e => decide (InWindow res a.start a.stop e.1.cmp)) = B := by
      apply List.filter_eq_self.mpr
      intro e _
      rw [decide_eq_true_eq, hno.1, hno.2]
      exact ⟨by simp, by simp⟩
    rw [this, List.zip_map']
    apply List.map_congr_left
    intro e _
    rw [hout]

theorem lines_ev_props (fw : Nat) (lines : List Nat) :
    (∀ e ∈ lines.map (fun n => (formatTimestamp fw .ps4 false (.u64 (n / 1024)), n % 16)), e.2 < 16) ∧
    Homogeneous ((lines.map (fun n => (formatTimestamp fw .ps4 false (.u64 (n / 1024)), n % 16))).map Prod.fst) := by
  constructor
  · intro e he
    obtain ⟨n, _, rfl⟩ := List.mem_map.mp he
    simp only; omega
  · left
    intro x hx
    simp only [List.map_map, List.mem_map, Function.comp] at hx
    obtain ⟨n, _, rfl⟩ := hx
    exact ⟨n / 1024, by simp [formatTimestamp]⟩

theorem bound_scale (s : ℚ) : bound .ps4 s = bound .ns1 s * 256 := by
  unfold bound
  have := fl_mul_zpow 53 (s * (1000000000 * (Tsres.ns1.value : ℚ))) 8
  norm_num [Tsres.value] at this ⊢
  rw [← this]
  congr 1
  ring

theorem inWindow_scale (start stop : Option ℚ) (x : ℚ) :
    InWindow .ps4 start stop x ↔ InWindow .ns1 start stop (x / 256) := by
  unfold InWindow
  simp only [bound_scale, le_div_iff₀ (show (0 : ℚ) < 256 by norm_num), div_le_iff₀ (show (0 : ℚ) < 256 by norm_num)]

theorem countBit_eq (i : Nat) (p : List Nat) : countBit (2 ^ i) p = p.countP (fun x => x.testBit i) := by
  unfold countBit
  rw [List.countP_eq_length_filter]
  congr 1
  apply List.filter_congr
  intro x _
  cases h : x.testBit i
  · rw [decide_eq_false_iff_not, not_not]
    apply Nat.eq_of_testBit_eq
    intro j
    rw [Nat.testBit_and, Nat.testBit_two_pow, Nat.zero_testBit]
    by_cases hij : i = j
    · subst hij; simp [h]
    · simp [hij]
  · rw [decide_eq_true_eq]
    intro hc
    have := congrArg (fun y => y.testBit i) hc
    simp [h, Nat.testBit_and, Nat.testBit_two_pow] at this

theorem sortedList_spec (xs : List Nat) (h : xs.Nodup) :
    (sortedList xs).Pairwise (· < ·) ∧ ∀ x, x ∈ sortedList xs ↔ x ∈ xs := by
  constructor
  · have h1 : (sortedList xs).Pairwise (fun a b => decide (a ≤ b) = true) :=
      List.pairwise_mergeSort (fun a b c => by simp; omega) (fun a b => by simp; omega) xs
    have h2 : (sortedList xs).Nodup := (List.mergeSort_perm xs _).nodup_iff.mpr h
    refine (h1.and h2).imp ?_
    intro a b hab
    have h3 := hab.1
    have h4 := hab.2
    simp only [decide_eq_true_eq] at h3
    omega
  · intro x
    simp [sortedList]

theorem foldl_stats (fw : Nat) (res : Tsres) (stream : List (List (Num × Nat))) (r : Report) :
    let r' := stream.foldl (statStep fw res) r
    let p := stream.flatten.map Prod.snd
    let t := stream.flatten.map Prod.fst
    r'.numEvents = r.numEvents + stream.flatten.length ∧
    r'.ch1 = r.ch1 + countBit 1 p ∧ r'.ch2 = r.ch2 + countBit 2 p ∧ r'.ch3 = r.ch3 + countBit 4 p ∧
    r'.ch4 = r.ch4 + countBit 8 p ∧ r'.multi = r.multi + countMulti p ∧ r'.non = r.non + countNone p ∧
    r'.start = (match r.start with | some s => some s | none => t.head?.map (toNs fw res)) ∧
    r'.stop = (match t.getLast? with | some tl => some (toNs fw res tl) | none => r.stop) ∧
    (r.patterns.Nodup → r'.patterns.Nodup) ∧ (∀ x, x ∈ r'.patterns ↔ x ∈ r.patterns ∨ x ∈ p) := by
  induction stream generalizing r with
  | nil =>
    simp [countBit, countMulti, countNone]
    cases r.start <;> rfl
  | cons b bs ih =>
    have h := ih (statStep fw res r b)
    simp only [List.foldl_cons, List.flatten_cons, List.map_append, List.length_append] at h ⊢
    obtain ⟨h1, h2, h3, h4, h5, h6, h7, h8, h9, h10, h11⟩ := h
    have cb : ∀ bit (x y : List Nat), countBit bit (x ++ y) = countBit bit x + countBit bit y := by
      intro bit x y; simp [countBit, List.filter_append]
    have cm : ∀ (x y : List Nat), countMulti (x ++ y) = countMulti x + countMulti y := by
      intro x y; simp [countMulti, List.filter_append]
    have cn : ∀ (x y : List Nat), countNone (x ++ y) = countNone x + countNone y := by
      intro x y; simp [countNone, List.filter_append]
    refine ⟨?_, ?_, ?_, ?_, ?_, ?_, ?_, ?_, ?_, ?_, ?_⟩
    · rw [h1]; simp [statStep]; omega
    · rw [h2, cb]; simp [statStep]; omega
    · rw [h3, cb]; simp [statStep]; omega
    · rw [h4, cb]; simp [statStep]; omega
    · rw [h5, cb]; simp [statStep]; omega
    · rw [h6, cm]; simp [statStep]; omega
    · rw [h7, cn]; simp [statStep]; omega
    · rw [h8]
      cases b with
      | nil => cases hst : r.start <;> simp [statStep, hst]
      | cons e es => cases hst : r.start <;> simp [statStep, hst]
    · rw [h9, List.getLast?_append]
      cases hl : (List.map Prod.fst bs.flatten).getLast? with
      | some x => simp
      | none =>
        simp only [Option.none_or]
        cases hb : (List.map Prod.fst b).getLast? with
        | some x => simp [statStep, hb]
        | none => simp [statStep, hb]
    · intro hnd
      apply h10
      simp only [statStep, setUpdate]
      apply List.Nodup.union
      exact (sortedList_spec _ (List.nodup_dedup _)).1.imp (fun h => by omega)
    · intro x
      rw [h11]
      have : ∀ ys zs : List Nat, x ∈ ys.union zs ↔ x ∈ ys ∨ x ∈ zs := fun ys zs => List.mem_union_iff
      simp only [statStep, setUpdate, this, sortedList, List.mem_mergeSort, List.mem_dedup, List.mem_append]
      tauto

theorem strict_sorted_ext (a b : List Nat) (ha : a.Pairwise (· < ·)) (hb : b.Pairwise (· < ·))
    (h : ∀ x, x ∈ a ↔ x ∈ b) : a = b := by
  apply List.Perm.eq_of_pairwise (le := (· < ·))
  · intro x y _ _ h1 h2; omega
  · exact ha
  · exact hb
  · exact (List.perm_ext_iff_of_nodup (ha.imp (fun h => by omega)) (hb.imp (fun h => by omega))).mpr h

theorem scaled_err (w : Nat) (hw : 53 ≤ w) (x : ℚ) :
    |fl w (fl w x * fl 53 (1 / 1000000000)) - x / 1000000000| ≤ |x| / 1000000000 / 2 ^ 51 := by
  have hle : ∀ y : ℚ, |fl w y - y| ≤ |y| / 2 ^ 53 := by
    intro y
    refine (fl_err w y).trans ?_
    rw [div_eq_mul_inv]
    apply mul_le_mul_of_nonneg_left _ (abs_nonneg y)
    rw [zpow_neg, zpow_natCast]
    apply inv_anti₀ (by positivity)
    exact pow_le_pow_right₀ (by norm_num) hw
  have h1 := hle x
  have hc : |fl 53 (1 / 1000000000) - 1 / 1000000000| ≤ 1 / 1000000000 / 2 ^ 53 := by
    have := fl_err 53 (1 / 1000000000)
    rw [abs_of_pos (show (0 : ℚ) < 1 / 1000000000 by norm_num)] at this
    refine this.trans ?_
    norm_num
  have h3 := hle (fl w x * fl 53 (1 / 1000000000))
  generalize fl w (fl w x * fl 53 (1 / 1000000000)) = z at *
  generalize fl 53 (1 / 1000000000) = c at *
  generalize fl w x = y at *
  have hy : |y| ≤ |x| * (1 + 1 / 2 ^ 53) := by
    have := abs_sub_abs_le_abs_sub y x
    have e : |x| * (1 + 1 / 2 ^ 53) = |x| + |x| / 2 ^ 53 := by ring
    rw [e]
    linarith
  have hc' : |c| ≤ 1 / 1000000000 * (1 + 1 / 2 ^ 53) := by
    have := abs_sub_abs_le_abs_sub c (1 / 1000000000)
    rw [abs_of_pos (show (0 : ℚ) < 1 / 1000000000 by norm_num)] at this
    have e : (1 : ℚ) / 1000000000 * (1 + 1 / 2 ^ 53) = 1 / 1000000000 + 1 / 1000000000 / 2 ^ 53 := by ring
    rw [e]
    linarith
  have e : z - x / 1000000000 = (z - y * c) + (y * (c - 1 / 1000000000) + (y - x) * (1 / 1000000000)) := by ring
  rw [e]
  have b1 : |y * c| ≤ (|x| * (1 + 1 / 2 ^ 53)) * (1 / 1000000000 * (1 + 1 / 2 ^ 53)) := by
    rw [abs_mul]
    exact mul_le_mul hy hc' (abs_nonneg _) (by positivity)
  have b2 : |y * (c - 1 / 1000000000)| ≤ (|x| * (1 + 1 / 2 ^ 53)) * (1 / 1000000000 / 2 ^ 53) := by
    rw [abs_mul]
    exact mul_le_mul hy hc (abs_nonneg _) (by positivity)
  have b3 : |(y - x) * (1 / 1000000000)| ≤ (|x| / 2 ^ 53) * (1 / 1000000000) := by
    rw [abs_mul, abs_of_pos (show (0 : ℚ) < 1 / 1000000000 by norm_num)]
    exact mul_le_mul_of_nonneg_right h1 (by norm_num)
  have t1 := abs_add_le (z - y * c) (y * (c - 1 / 1000000000) + (y - x) * (1 / 1000000000))
  have t2 := abs_add_le (y * (c - 1 / 1000000000)) ((y - x) * (1 / 1000000000))
  have hx := abs_nonneg x
  generalize |x| = X at *
  have b1' : |z - y * c| ≤ X * (1 + 1 / 2 ^ 53) * (1 / 1000000000 * (1 + 1 / 2 ^ 53)) / 2 ^ 53 :=
    h3.trans (div_le_div_of_nonneg_right b1 (by positivity))
  norm_num at *
  linarith

end Fp
