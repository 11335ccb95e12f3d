import Verif.Spec.FpMain
import Verif.Props.EpochNames
import Verif.Props.EpochBits
import Verif.Props.Utils
import Verif.Lemmas.Float

/-! Helper lemmas for `Verif/Props/FpMain.lean`. -/
namespace Fp
open Spec

theorem fl_fl (p : ℕ) (hp : 1 ≤ p) (x : ℚ) (hx : 0 ≤ x) : fl p (fl p x) = fl p x := by
  rcases hx.eq_or_lt with rfl | hx
  · rw [fl_zero, fl_zero]
  have h1 := Int.zpow_log_le_self (b := 2) (R := ℚ) (by norm_num) hx
  have h2 := Int.lt_zpow_succ_log_self (b := 2) (R := ℚ) (by norm_num) x
  push_cast at h1 h2
  set L := Int.log 2 x with hL
  rw [fl_eval p x L h1 h2]
  set u := L - ((p : ℤ) - 1) with hu
  have hupos : (0 : ℚ) < 2 ^ u := by positivity
  have hm0 : 0 ≤ rne (x / 2 ^ u) := le_rne_int (by push_cast; positivity)
  have hm1 : rne (x / 2 ^ u) ≤ 2 ^ p := by
    apply rne_le_int
    push_cast
    rw [div_le_iff₀ hupos]
    have : (2 : ℚ) ^ p * 2 ^ u = 2 ^ (L + 1) := by
      rw [← zpow_natCast, ← zpow_add₀ (by norm_num)]
      congr 1
      rw [hu]; ring
    rw [this]
    exact h2.le
  generalize rne (x / 2 ^ u) = m at hm0 hm1
  rcases hm1.lt_or_eq with h | h
  · exact fl_exact p m u (by rw [abs_of_nonneg hm0]; exact h)
  · have e : (m : ℚ) * 2 ^ u = ((1 : ℤ) : ℚ) * 2 ^ ((p : ℤ) + u) := by
      rw [h, zpow_add₀ (by norm_num), zpow_natCast]
      push_cast
      ring
    rw [e]
    apply fl_exact
    rw [abs_one]
    exact one_lt_pow₀ (by norm_num) (by omega)

theorem dir_epochs (d : EpochDir) (isT1 : Bool) (vs : List Nat) (h : EpochDirOk d isT1 vs) :
    EpochsOf d.names (vs.map fun v : Nat => (v : Int)) := by
  unfold EpochsOf
  rw [h.1, List.map_map, List.map_map]
  apply List.map_congr_left
  intro v _
  exact C23_number_name_number v

theorem common_iff (e1 e2 : List Nat) (first : Option Nat) (v : Nat) :
    Common (e1.map fun v : Nat => (v : Int)) (e2.map fun v : Nat => (v : Int)) (first.map fun v : Nat => (v : Int)) (v : Int) ↔
      CommonNat e1 e2 first v := by
  unfold Common CommonNat
  cases first <;> simp

theorem common_nat (e1 e2 : List Nat) (first : Option Nat) (v : Int)
    (h : Common (e1.map fun v : Nat => (v : Int)) (e2.map fun v : Nat => (v : Int)) (first.map fun v : Nat => (v : Int)) v) :
    ∃ w : Nat, v = (w : Int) ∧ CommonNat e1 e2 first w := by
  obtain ⟨w, -, rfl⟩ := List.mem_map.mp h.1
  exact ⟨w, rfl, (common_iff e1 e2 first w).mp h⟩

theorem first_map (o : Option (List Char)) (first : Option Nat) (h : o.map epoch2int = first.map fun v : Nat => .ok (v : Int)) :
    o.map epoch2int = (first.map fun v : Nat => (v : Int)).map Except.ok := by
  rw [h]; cases first <;> rfl

theorem overlap_run (d1 d2 : EpochDir) (e1 e2 : List Nat) (ok1 : EpochDirOk d1 false e1) (ok2 : EpochDirOk d2 true e2)
    (o : Option (List Char)) (first : Option Nat) (hf : o.map epoch2int = first.map fun v : Nat => .ok (v : Int))
    (m n : Nat) (hrun : FirstRun e1 e2 first m n) :
    Returns (fun fuel => getFirstOverlappingEpoch fuel d1.names d2.names o) (.ok (some (int2epoch (m : Int)), n)) := by
  refine C24_first_overlap _ _ _ _ (dir_epochs d1 false e1 ok1) (dir_epochs d2 true e2 ok2) o _ (first_map o first hf) (m : Int) n ?_ ?_ ?_
  · refine ⟨(common_iff _ _ _ _).mpr hrun.1.1, ?_⟩
    intro v hv
    obtain ⟨w, rfl, hw⟩ := common_nat _ _ _ _ hv
    exact_mod_cast hrun.1.2 hw
  · intro i hi
    have := (common_iff e1 e2 first (m + i)).mpr (hrun.2.1 i hi)
    exact_mod_cast this
  · intro hc
    apply hrun.2.2
    rw [← common_iff]
    exact_mod_cast hc

/-- Reading a range of epochs of a proper directory: all of them, or `FileNotFoundError` if one is missing. -/
theorem load_range (d : EpochDir) (isT1 : Bool) (vs : List Nat) (h : EpochDirOk d isT1 vs) (m skip num : Nat) :
    ((∀ i < num, m + skip + i ∈ vs) → ∃ ts, (∀ i < num, EpochTimes d.file isT1 ((m + skip + i : Nat) : Int) (ts i)) ∧
      Returns (fun fuel => getTimestamp fuel d.file isT1 (int2epoch (m : Int)) (skip : Int) num) (.ok ((List.range num).flatMap ts))) ∧
    ((∃ i < num, m + skip + i ∉ vs) →
      Returns (fun fuel => getTimestamp fuel d.file isT1 (int2epoch (m : Int)) (skip : Int) num) (.error .fileNotFound)) := by
  have hread : ∀ v : Nat, v ∈ vs → ∃ ts, EpochTimes d.file isT1 (v : Int) ts := by
    intro v hv
    obtain ⟨file, hfile⟩ := Option.ne_none_iff_exists'.mp ((h.2.1 v).mpr hv)
    obtain ⟨evs, hevs⟩ := h.2.2 _ _ hfile
    exact ⟨evs.map Prod.fst, file, evs, hfile, hevs, rfl⟩
  classical
  let ts : Nat → List ENum := fun i => if hi : m + skip + i ∈ vs then (hread _ hi).choose else []
  have hts : ∀ i, m + skip + i ∈ vs → EpochTimes d.file isT1 ((m : Int) + (skip : Int) + (i : Int)) (ts i) := by
    intro i hi
    have := (hread _ hi).choose_spec
    simp only [ts, dif_pos hi]
    exact_mod_cast this
  constructor
  · intro hall
    refine ⟨ts, fun i hi => ?_, C25_concatenation d.file isT1 _ (m : Int) (skip : Int) num (C23_number_name_number m) ts
      fun i hi => hts i (hall i hi)⟩
    have := hts i (hall i hi)
    exact_mod_cast this
  · intro hex
    have hfind := Nat.find_spec hex
    have hmin : ∀ i < Nat.find hex, m + skip + i ∈ vs := by
      intro i hi
      have := Nat.find_min hex hi
      by_contra hc
      exact this ⟨by omega, hc⟩
    refine C25_missing d.file isT1 _ (m : Int) (skip : Int) num (Nat.find hex) (C23_number_name_number m) ts
      (fun i hi => hts i (hmin i hi)) hfind.1 ?_
    by_contra hc
    apply hfind.2
    rw [← h.2.1]
    exact_mod_cast hc

theorem returns_unique {α : Type} (prog : Nat → Option α) (a b : α) (h1 : Returns prog a) (h2 : Returns prog b) : a = b := by
  obtain ⟨N1, g1⟩ := h1
  obtain ⟨N2, g2⟩ := h2
  have := g1 (max N1 N2) (le_max_left _ _)
  rw [g2 (max N1 N2) (le_max_right _ _)] at this
  exact (Option.some.inj this).symm

theorem concat_sorted (dir : List Char → Option Bytes) (isT1 : Bool) (m skip num : Nat) (ts : Nat → List ENum)
    (h : ∀ i < num, EpochTimes dir isT1 ((m + skip + i : Nat) : Int) (ts i))
    (hs : ∀ i < num, (ts i).Pairwise (fun a b => a.val ≤ b.val))
    (hin : ∀ i < num, ∀ x ∈ ts i, InEpoch ((m + skip + i : Nat) : Int) x.val)
    (hblock : ∀ i < num, (m + skip + i) / 2 ^ 17 = (m + skip) / 2 ^ 17) :
    (((List.range num).flatMap ts).map ENum.val).Pairwise (· ≤ ·) := by
  have h' : ∀ i < num, EpochTimes dir isT1 ((m : Int) + (skip : Int) + (i : Int)) (ts i) := fun i hi => by
    have := h i hi
    exact_mod_cast this
  have hin' : ∀ i < num, ∀ x ∈ ts i, InEpoch ((m : Int) + (skip : Int) + (i : Int)) x.val := fun i hi x hx => by
    have := hin i hi x hx
    exact_mod_cast this
  have hb' : ∀ i < num, ((m : Int) + (skip : Int) + (i : Int)) / 2 ^ 17 = ((m : Int) + (skip : Int)) / 2 ^ 17 := fun i hi => by
    have := hblock i hi
    omega
  obtain ⟨out, r1, r2⟩ := C25_sorted dir isT1 (int2epoch (m : Int)) (m : Int) (skip : Int) num (C23_number_name_number m) ts h' hs hin' hb'
  have r3 := C25_concatenation dir isT1 (int2epoch (m : Int)) (m : Int) (skip : Int) num (C23_number_name_number m) ts h'
  have := returns_unique _ _ _ r1 r3
  have : out = (List.range num).flatMap ts := by simpa using this
  rw [← this, List.pairwise_map]
  exact r2

theorem sorted_last (l : List ℚ) (hl : l.Pairwise (· ≤ ·)) (y : ℚ) (hy : y ∈ l) : ∃ z, l.getLast? = some z ∧ y ≤ z := by
  induction l generalizing y with
  | nil => simp at hy
  | cons x l ih =>
    cases l with
    | nil =>
      have : y = x := by simpa using hy
      exact ⟨x, rfl, this.le⟩
    | cons x' l =>
      rw [List.pairwise_cons] at hl
      rw [List.getLast?_cons_cons]
      rcases List.mem_cons.mp hy with rfl | hy
      · obtain ⟨z, hz, hz'⟩ := ih hl.2 x' (by simp)
        exact ⟨z, hz, (hl.1 _ (by simp)).trans hz'⟩
      · exact ih hl.2 y hy

theorem span_core (A B : List ℚ) (hA : A.Pairwise (· ≤ ·)) (hB : B.Pairwise (· ≤ ·)) (c d : ℚ)
    (xa : ℚ) (h1 : xa ∈ A) (h1' : xa < c) (ya : ℚ) (h2 : ya ∈ A) (h2' : d ≤ ya)
    (xb : ℚ) (h3 : xb ∈ B) (h3' : xb < c) (yb : ℚ) (h4 : yb ∈ B) (h4' : d ≤ yb) (hcd : c ≤ d)
    (hApos : ∀ x ∈ A, 0 ≤ x) (hc : fl 64 c = c) (hdc : fl 64 (d - c) = d - c) :
    ∃ a b t, normalizeTimestampsR (fl 53) (fl 64) [A, B] 0 true = .ok [a, b] ∧ a.Pairwise (· ≤ ·) ∧ b.Pairwise (· ≤ ·) ∧
      (∀ x ∈ a, 0 ≤ x) ∧ (∀ x ∈ b, 0 ≤ x) ∧ tfEndTime a b = .ok t ∧ d - c ≤ t := by
  cases A with
  | nil => simp at h1
  | cons a0 A =>
  cases B with
  | nil => simp at h3
  | cons b0 B =>
  have ha0 : a0 < c := by
    rcases List.mem_cons.mp h1 with rfl | h
    · exact h1'
    · exact lt_of_le_of_lt ((List.pairwise_cons.mp hA).1 _ h) h1'
  have hb0 : b0 < c := by
    rcases List.mem_cons.mp h3 with rfl | h
    · exact h3'
    · exact lt_of_le_of_lt ((List.pairwise_cons.mp hB).1 _ h) h3'
  obtain ⟨S, hS, hSc⟩ : ∃ S, S = fl 64 (max a0 b0 + fl 53 (0 * 10 ^ 9)) ∧ S ≤ c := by
    refine ⟨_, rfl, ?_⟩
    rw [zero_mul, fl_zero, add_zero, ← hc]
    exact fl_mono_nonneg 64 (by norm_num) ((hApos a0 (by simp)).trans (le_max_left _ _)) (max_lt ha0 hb0).le
  let g : List ℚ → List ℚ := fun l => (l.map fun t => fl 64 (t - S)).filter fun t => decide (0 ≤ t)
  have hn : normalizeTimestampsR (fl 53) (fl 64) [a0 :: A, b0 :: B] 0 true = .ok [g (a0 :: A), g (b0 :: B)] := by
    simp only [normalizeTimestampsR, List.mapM_cons, List.mapM_nil, sliceTimestampsR, bind, Except.bind, pure,
      Except.pure, if_true, List.foldl_cons, List.foldl_nil, ← hS]
    rfl
  have hg : ∀ l : List ℚ, g l = (l.filter fun t => decide (S ≤ t)).map fun t => fl 64 (t - S) := by
    intro l
    simp only [g]
    rw [List.filter_map]
    congr 1
    apply List.filter_congr
    intro t _
    simp [fl_nonneg_iff, sub_nonneg]
  have hsort : ∀ l : List ℚ, l.Pairwise (· ≤ ·) → (g l).Pairwise (· ≤ ·) := by
    intro l hl
    rw [hg, List.pairwise_map]
    refine (hl.filter _).imp_of_mem ?_
    intro x y hx _ hxy
    have := (List.mem_filter.mp hx).2
    simp only [decide_eq_true_eq] at this
    exact fl_mono_nonneg 64 (by norm_num) (by linarith) (by linarith)
  have hpos : ∀ l : List ℚ, ∀ x ∈ g l, 0 ≤ x := by
    intro l x hx
    simpa using (List.mem_filter.mp hx).2
  have hmem : ∀ l : List ℚ, ∀ y ∈ l, d ≤ y → fl 64 (y - S) ∈ g l := by
    intro l y hy hdy
    rw [hg]
    exact List.mem_map.mpr ⟨y, List.mem_filter.mpr ⟨hy, by simp only [decide_eq_true_eq]; linarith⟩, rfl⟩
  have hlow : ∀ y, d ≤ y → d - c ≤ fl 64 (y - S) := by
    intro y hy
    rw [← hdc]
    exact fl_mono_nonneg 64 (by norm_num) (by linarith) (by linarith)
  obtain ⟨za, ea, hza⟩ := sorted_last _ (hsort _ hA) _ (hmem _ ya h2 h2')
  obtain ⟨zb, eb, hzb⟩ := sorted_last _ (hsort _ hB) _ (hmem _ yb h4 h4')
  refine ⟨_, _, min za zb, hn, hsort _ hA, hsort _ hB, hpos _, hpos _, ?_, ?_⟩
  · unfold tfEndTime
    rw [ea, eb]
  · exact le_min ((hlow _ h2').trans hza) ((hlow _ h4').trans hzb)

def wBody (dt : Nat) : Bytes := [dt, 0, 1, 0].flatMap (leBytes 4)

def wT2 (epoch dt : Nat) : Bytes := Spec.t2File 2 epoch 1 32 32 0 (wBody dt)

def wDir (f5 f6 : Bytes) : EpochDir :=
  { names := [5, 6].map fun v : Nat => int2epoch (v : Int)
    file := fun name => if name = int2epoch ((5 : Nat) : Int) then some f5 else if name = int2epoch ((6 : Nat) : Int) then some f6 else none }

theorem wDir_ok (isT1 : Bool) (f5 f6 : Bytes)
    (h5 : ∃ evs, Returns (fun fuel => if isT1 then readT1 fuel false .ns1 true f5 else readT2 fuel false .ns1 true f5) (.ok evs))
    (h6 : ∃ evs, Returns (fun fuel => if isT1 then readT1 fuel false .ns1 true f6 else readT2 fuel false .ns1 true f6) (.ok evs)) :
    EpochDirOk (wDir f5 f6) isT1 [5, 6] := by
  refine ⟨rfl, ?_, ?_⟩
  · intro v
    simp only [wDir]
    by_cases e5 : v = 5
    · subst e5; simp
    by_cases e6 : v = 6
    · subst e6
      rw [if_neg (fun h => absurd (C23_names_distinct 6 5 h) (by decide)), if_pos rfl]
      simp
    · rw [if_neg (fun h => e5 (C23_names_distinct v 5 h)), if_neg (fun h => e6 (C23_names_distinct v 6 h))]
      simp [e5, e6]
  · intro name file hfile
    simp only [wDir] at hfile
    split_ifs at hfile with c1 c2
    · obtain rfl : f5 = file := by simpa using hfile
      exact h5
    · obtain rfl : f6 = file := by simpa using hfile
      exact h6

theorem wT2_read (epoch dt : Nat) (he : epoch < 8) (h2 : 2 ≤ dt) (hdt : dt < 2 ^ 32)
    (hs : Starts (wBody dt) (([⟨false, dt, 0⟩] : List Entry).flatMap (Entry.bits 32 32) ++ terminator 32 32)) :
    Returns (fun fuel => readT2 fuel false .ns1 true (wT2 epoch dt)) (.ok [(.flt (((epoch * 2 ^ 32 + dt : Nat) : ℚ) / 8), 0)]) := by
  have h := C18_t2_decode 2 epoch 1 32 32 0 (by norm_num) (by omega) (by norm_num) (by norm_num) (by norm_num) (by norm_num) (by norm_num)
    [⟨false, dt, 0⟩] (by simp [Entry.Ok]; omega) (Or.inr rfl) (wBody dt) hs false (by
      simp only [runningSums, List.mem_singleton]
      rintro x rfl
      simp only [Bool.false_eq_true, if_false]
      omega) .ns1
  have em : epoch % 2 ^ 17 = epoch := by omega
  rw [em] at h
  simpa [runningSums, Tsres.value, wT2] using h

theorem wT1_read (epoch t : Nat) (he : epoch < 8) (he0 : 0 < epoch) (ht : t < 2 ^ 37) :
    Returns (fun fuel => readT1 fuel false .ns1 true (t1File epoch [(t, 1)])) (.ok [(.flt (((epoch * 2 ^ 37 + t : Nat) : ℚ) / 256), 1)]) := by
  have he' : (((epoch : Nat) : Int) % 2 ^ 32).toNat = epoch := by omega
  have hv : ∀ e ∈ [(t, 1)], T1Valid e := by simp [T1Valid]; omega
  have hz : ∀ e ∈ [(t, 1)], ¬ ZeroEvent (((epoch : Nat) : Int) % 2 ^ 32).toNat e := by simp [ZeroEvent]
  obtain ⟨name, file, hw, hr⟩ := C14_t1_roundtrip_partial (epoch : Int) [(t, 1)] hv (by simp) hz .ns1 true
  have hfile := C14_t1_file (epoch : Int) [(t, 1)] hv (by simp)
  rw [hw, he'] at hfile
  have hfile' : file = t1File epoch [(t, 1)] := by
    simp only [Except.ok.injEq, Prod.mk.injEq] at hfile
    exact hfile.2.1
  rw [hfile', he'] at hr
  have em : epoch % 2 ^ 17 = epoch := by omega
  simp only [t1Time, em, List.map_cons, List.map_nil] at hr
  simpa [eValue, timeIn, Tsres.value] using hr

/-- The options of the example: directories as given, minimum duration 2^29 ns. -/
def wArgs (d1 d2 : EpochDir) : FpArgs :=
  { sendfiles := some d1, t1files := some d2, reference := none, target := none, legacy := false, skipDuration := 0, firstEpoch := none,
    skipEpochs := 0, initialRes := 16, bufferOrder := 24, numWraps := 1, separation := 1 }

theorem wArgs_dur (d1 d2 : EpochDir) : (wArgs d1 d2).minDuration (fl 53) = 2 ^ 29 := by
  have e1 : fl 53 ((1 : ℚ) + 1) = 2 := by
    have := fl_nat 53 2 (by norm_num)
    norm_num at this ⊢
    exact this
  have e2 : fl 53 (((16 * 2 ^ 24 * 1 : Nat) : ℚ)) = 2 ^ 28 := by
    rw [fl_nat 53 _ (by norm_num)]; norm_num
  have e3 : fl 53 ((2 : ℚ) * 2 ^ 28) = 2 ^ 29 := by
    have := fl_nat 53 (2 ^ 29) (by norm_num)
    norm_num at this ⊢
    exact this
  unfold FpArgs.minDuration FpArgs.ta
  simp only [wArgs]
  rw [e1, e2, e3]

theorem wArgs_req (d1 d2 : EpochDir) : (wArgs d1 d2).requiredEpochs (fl 53) = 2 := by
  unfold FpArgs.requiredEpochs
  rw [wArgs_dur]
  have e : fl 53 ((2 : ℚ) ^ 29 / 2 ^ 29) = ((1 : ℤ) : ℚ) := by
    have := fl_nat 53 1 (by norm_num)
    norm_num at this ⊢
    exact this
  rw [e, Int.ceil_intCast]
  rfl

theorem wRun : FirstRun [5, 6] [5, 6] none 5 2 := by
  refine ⟨⟨by simp [CommonNat], ?_⟩, ?_, by simp [CommonNat]⟩
  · rintro v ⟨h, -, -⟩
    simp at h
    omega
  · intro i hi
    have : i = 0 ∨ i = 1 := by omega
    rcases this with rfl | rfl <;> simp [CommonNat]

theorem wStarts1 : Starts (wBody (2 ^ 32 - 8)) (([⟨false, 2 ^ 32 - 8, 0⟩] : List Entry).flatMap (Entry.bits 32 32) ++ terminator 32 32) := by
  unfold Starts
  decide +kernel

theorem wStarts2 : Starts (wBody 8) (([⟨false, 8, 0⟩] : List Entry).flatMap (Entry.bits 32 32) ++ terminator 32 32) := by
  unfold Starts
  decide +kernel

theorem wTimes (isT1 : Bool) (f5 f6 : Bytes) (v5 v6 : ℚ) (p : Nat)
    (r5 : Returns (fun fuel => if isT1 then readT1 fuel false .ns1 true f5 else readT2 fuel false .ns1 true f5) (.ok [(.flt v5, p)]))
    (r6 : Returns (fun fuel => if isT1 then readT1 fuel false .ns1 true f6 else readT2 fuel false .ns1 true f6) (.ok [(.flt v6, p)])) :
    ∀ i < 2, ∀ ts, EpochTimes (wDir f5 f6).file isT1 ((5 + i : Nat) : Int) ts → ts = [ENum.flt (if i = 0 then v5 else v6)] := by
  have hne : ¬ int2epoch ((6 : Nat) : Int) = int2epoch ((5 : Nat) : Int) := fun h => absurd (C23_names_distinct 6 5 h) (by decide)
  rintro i hi ts ⟨file, evs, g1, g2, rfl⟩
  have : i = 0 ∨ i = 1 := by omega
  rcases this with rfl | rfl
  · simp only [wDir, if_true, Option.some.injEq, Nat.add_zero] at g1
    subst g1
    have := returns_unique _ _ _ g2 r5
    obtain rfl : evs = _ := by simpa using this
    simp
  · simp only [wDir, if_neg hne, if_true, Option.some.injEq, Nat.reduceAdd] at g1
    subst g1
    have := returns_unique _ _ _ g2 r6
    obtain rfl : evs = _ := by simpa using this
    simp

end Fp
