import Verif.Props.FpInputRun
import Verif.Props.FreqcdProgram
import Verif.Lemmas.EndToEnd
import Verif.Spec.Pipeline

/-! # C124: from two recordings to a recording that runs at the rate of the reference clock -/
namespace Fp
open Spec

/-- A printed correction that freqcd accepts comes from a frequency of at most 2^-12. -/
theorem inverse_small (dt df : ℚ) (n : ℤ) (hlo : 1 - 1 / 2 ^ 8 ≤ 1 + df) (hn : (fpOutput (fl 53) 3 dt df).df = .inr n) (hb : |n| < 2 ^ 21) :
    |df| ≤ 1 / 2 ^ 12 := by
  have hrel : RelErr (fl 53) := C76_arithmetic.1
  unfold fpOutput at hn
  norm_num [invertComp] at hn
  obtain ⟨e1, k1, q1⟩ := relErr_factor hrel (1 + df)
  obtain ⟨e2, k2, q2⟩ := relErr_factor hrel (1 / fl 53 (1 + df))
  obtain ⟨e3, k3, q3⟩ := relErr_factor hrel (fl 53 (1 / fl 53 (1 + df)) - 1)
  obtain ⟨e4, k4, q4⟩ := relErr_factor hrel (fl 53 (fl 53 (1 / fl 53 (1 + df)) - 1) * 2 ^ 34)
  have hr := rne_spec (fl 53 (fl 53 (fl 53 (1 / fl 53 (1 + df)) - 1) * 2 ^ 34))
  norm_num at hr q4 q3 q2 k1 k2 k3 k4 hlo
  rw [hn] at hr
  obtain ⟨z, hz⟩ : ∃ z, z = fl 53 (fl 53 (1 + df))⁻¹ := ⟨_, rfl⟩
  rw [← hz] at q2 q3 q4 hr
  rw [q4, q3] at hr
  have hn1 : |(n : ℚ)| ≤ 2 ^ 21 - 1 := by
    have h1 : |n| ≤ 2 ^ 21 - 1 := by omega
    have : ((|n| : ℤ) : ℚ) ≤ ((2 ^ 21 - 1 : ℤ) : ℚ) := by exact_mod_cast h1
    push_cast at this
    norm_num at this ⊢
    exact this
  obtain ⟨a1, a1'⟩ := abs_le.mp k1
  obtain ⟨a2, a2'⟩ := abs_le.mp k2
  obtain ⟨a3, a3'⟩ := abs_le.mp k3
  obtain ⟨a4, a4'⟩ := abs_le.mp k4
  have hv : |(z - 1) * (1 + e3) * 17179869184 * (1 + e4)| ≤ 2 ^ 21 := by
    have := abs_sub_abs_le_abs_sub ((z - 1) * (1 + e3) * 17179869184 * (1 + e4)) n
    rw [abs_sub_comm] at this
    norm_num at hn1
    rw [show (2 : ℚ) ^ 21 = 2097152 by norm_num]
    linarith
  have hz1 : |z - 1| ≤ 1 / 2 ^ 13 + 1 / 2 ^ 40 := by
    rw [abs_mul, abs_mul, abs_mul] at hv
    have b3 : (1 - 1 / 2 ^ 50 : ℚ) ≤ |1 + e3| := by
      rw [abs_of_pos (by linarith)]; norm_num; linarith
    have b4 : (1 - 1 / 2 ^ 50 : ℚ) ≤ |1 + e4| := by
      rw [abs_of_pos (by linarith)]; norm_num; linarith
    have m1 : |z - 1| * ((1 - 1 / 2 ^ 50) * 17179869184 * (1 - 1 / 2 ^ 50)) ≤ |z - 1| * (|1 + e3| * |(17179869184 : ℚ)| * |1 + e4|) := by
      apply mul_le_mul_of_nonneg_left _ (abs_nonneg _)
      rw [abs_of_pos (by norm_num : (0 : ℚ) < 17179869184)]
      exact mul_le_mul (mul_le_mul_of_nonneg_right b3 (by norm_num)) b4 (by norm_num) (by positivity)
    have m2 : |z - 1| * ((1 - 1 / 2 ^ 50) * 17179869184 * (1 - 1 / 2 ^ 50)) ≤ 2 ^ 21 := by
      refine m1.trans (le_trans (le_of_eq ?_) hv)
      ring
    by_contra hc
    rw [not_le] at hc
    have := mul_lt_mul_of_pos_right hc (by norm_num : (0 : ℚ) < (1 - 1 / 2 ^ 50) * 17179869184 * (1 - 1 / 2 ^ 50))
    norm_num at this m2
    linarith
  have hy0 : 0 < 1 + df := by linarith
  have hy : fl 53 (1 + df) = (1 + df) * (1 + e1) := q1
  have h1e : 0 < 1 + e1 := by linarith
  have hprod : (1 + df) * (1 + e1) * z = 1 + e2 := by
    rw [q2, hy]
    field_simp
  obtain ⟨z1, z2⟩ := abs_le.mp hz1
  norm_num at z1 z2
  rw [abs_le]
  constructor
  · by_contra hc
    rw [not_le] at hc
    norm_num at hc
    have : (1 + df) * (1 + e1) * z ≤ (1 - 1 / 4096) * (1 + 1 / 9007199254740992) * (1 + 1 / 8192 + 1 / 1099511627776) := by
      refine mul_le_mul (mul_le_mul (by linarith) (by linarith) (by linarith) (by norm_num)) (by linarith) (by linarith) (by norm_num)
    norm_num at this
    linarith
  · by_contra hc
    rw [not_le] at hc
    norm_num at hc
    have : (1 + 1 / 4096 : ℚ) * (1 - 1 / 9007199254740992) * (1 - 1 / 8192 - 1 / 1099511627776) ≤ (1 + df) * (1 + e1) * z := by
      refine mul_le_mul (mul_le_mul (by linarith) (by linarith) (by norm_num) (by linarith)) (by linarith) (by norm_num) (by positivity)
    norm_num at this
    linarith

theorem output7 (flag : ℕ) (h : flag % 8 = 7) (dt df : ℚ) : (fpOutput (fl 53) flag dt df).df = (fpOutput (fl 53) 3 dt df).df ∧
    (fpOutput (fl 53) flag dt df).dt = none := by
  have h1 : flag % 2 = 1 := by omega
  have h2 : flag / 2 % 2 = 1 := by omega
  have h3 : flag / 4 % 2 = 1 := by omega
  unfold fpOutput
  simp [h1, h2, h3]

/-- The arithmetic of the pipeline: `T`, `T0` are times of target events in units of 4 ps, `x`, `x0` what the target clock showed
at the reference times `a`, `a0`. -/
theorem pipeline_arith (df dt s q T T0 c a a0 x x0 e e0 η ρ : ℚ) (hlo : 1 - 1 / 2 ^ 8 ≤ 1 + df)
    (h1 : |T / 256 - s - x| ≤ q) (h0 : |T0 / 256 - s - x0| ≤ q) (hx : |corrected dt df x - a| ≤ e) (hx0 : |corrected dt df x0 - a0| ≤ e0)
    (hc : |(T + c - T0) - (T - T0) * (1 + (1 / (1 + df) - 1))| < ρ + |T - T0| * η) :
    |(T + c - T0) / 256 - (a - a0)| < e + e0 + (2 + 1 / 2 ^ 6) * q + (ρ + |T - T0| * η) / 256 := by
  have hp : 0 < 1 + df := lt_of_lt_of_le (by norm_num) hlo
  have hP : 1 / (1 + df) ≤ 1 + 1 / 2 ^ 7 := by
    rw [div_le_iff₀ hp]
    have : (1 + 1 / 2 ^ 7 : ℚ) * (1 - 1 / 2 ^ 8) ≤ (1 + 1 / 2 ^ 7) * (1 + df) := mul_le_mul_of_nonneg_left hlo (by norm_num)
    refine le_trans ?_ this
    norm_num
  have hP0 : 0 < 1 / (1 + df) := by positivity
  obtain ⟨P, hPd⟩ : ∃ P, P = 1 / (1 + df) := ⟨_, rfl⟩
  have hx' : |(x - dt) * P - a| ≤ e := by
    have : corrected dt df x = (x - dt) * P := by unfold corrected; rw [hPd]; ring
    rw [← this]; exact hx
  have hx0' : |(x0 - dt) * P - a0| ≤ e0 := by
    have : corrected dt df x0 = (x0 - dt) * P := by unfold corrected; rw [hPd]; ring
    rw [← this]; exact hx0
  rw [← hPd] at hP hP0 hc
  rw [show (1 : ℚ) + (P - 1) = P by ring] at hc
  have e1 : (T + c - T0) / 256 - (a - a0) = ((T + c - T0) - (T - T0) * P) / 256 + ((T / 256 - s - x) - (T0 / 256 - s - x0)) * P +
      (((x - dt) * P - a) - ((x0 - dt) * P - a0)) := by ring
  rw [e1]
  have b1 : |((T + c - T0) - (T - T0) * P) / 256| < (ρ + |T - T0| * η) / 256 := by
    rw [abs_div, abs_of_pos (by norm_num : (0 : ℚ) < 256)]
    exact div_lt_div_of_pos_right hc (by norm_num)
  have hq : 0 ≤ q := (abs_nonneg _).trans h1
  have b2 : |((T / 256 - s - x) - (T0 / 256 - s - x0)) * P| ≤ (2 + 1 / 2 ^ 6) * q := by
    rw [abs_mul, abs_of_pos hP0]
    have h3 : |(T / 256 - s - x) - (T0 / 256 - s - x0)| ≤ 2 * q := (abs_sub _ _).trans (by linarith)
    have h4 := mul_le_mul h3 hP hP0.le (by linarith)
    refine h4.trans (le_of_eq ?_)
    ring
  have b3 : |((x - dt) * P - a) - ((x0 - dt) * P - a0)| ≤ e + e0 := (abs_sub _ _).trans (by linarith)
  have s1 := abs_add_le (((T + c - T0) - (T - T0) * P) / 256 + ((T / 256 - s - x) - (T0 / 256 - s - x0)) * P)
    (((x - dt) * P - a) - ((x0 - dt) * P - a0))
  have s2 := abs_add_le (((T + c - T0) - (T - T0) * P) / 256) (((T / 256 - s - x) - (T0 / 256 - s - x0)) * P)
  linarith

/-- What fpfind prints for a small frequency difference is in the range of freqcd. -/
theorem inverse_range (dt df φ τ t e e0 : ℚ) (n : ℤ) (hlo : 1 - 1 / 2 ^ 8 ≤ 1 + df) (hn : (fpOutput (fl 53) 3 dt df).df = .inr n)
    (hφ : |φ| ≤ 1 / 2 ^ 14) (ht : 0 < t) (h1 : |corrected dt df (targetClock φ τ t) - t| ≤ e)
    (h0 : |corrected dt df (targetClock φ τ 0) - 0| ≤ e0) (he : e + e0 ≤ t / 2 ^ 15) : |n| < 2 ^ 21 := by
  have hp : 0 < 1 + df := lt_of_lt_of_le (by norm_num) hlo
  obtain ⟨P, hP⟩ : ∃ P, P = 1 / (1 + df) := ⟨_, rfl⟩
  have hPd : P * (1 + df) = 1 := by rw [hP]; field_simp
  have e1 : (corrected dt df (targetClock φ τ t) - t) - (corrected dt df (targetClock φ τ 0) - 0) = ((1 + φ) * P - 1) * t := by
    unfold corrected targetClock
    rw [hP]
    ring
  have b1 : |((1 + φ) * P - 1)| * t ≤ t / 2 ^ 15 := by
    have := abs_sub (corrected dt df (targetClock φ τ t) - t) (corrected dt df (targetClock φ τ 0) - 0)
    rw [e1, abs_mul, abs_of_pos ht] at this
    linarith
  have b2 : |((1 + φ) * P - 1)| ≤ 1 / 2 ^ 15 := by
    have : |((1 + φ) * P - 1)| * t ≤ 1 / 2 ^ 15 * t := b1.trans (le_of_eq (by ring))
    exact le_of_mul_le_mul_right this ht
  obtain ⟨f1, f2⟩ := abs_le.mp hφ
  obtain ⟨g1, g2⟩ := abs_le.mp b2
  have hP0 : 0 < P := by rw [hP]; positivity
  have u1 : P - 1 ≤ 1 / 2 ^ 13 - 1 / 2 ^ 15 + 1 / 2 ^ 20 := by
    have : (1 - 1 / 2 ^ 14) * P ≤ (1 + φ) * P := mul_le_mul_of_nonneg_right (by linarith) hP0.le
    norm_num at this g2 ⊢
    linarith
  have u2 : -(1 / 2 ^ 13 - 1 / 2 ^ 15 + 1 / 2 ^ 20) ≤ P - 1 := by
    have : (1 + φ) * P ≤ (1 + 1 / 2 ^ 14) * P := mul_le_mul_of_nonneg_right (by linarith) hP0.le
    norm_num at this g1 ⊢
    linarith
  have hdf : |df| ≤ 1 / 2 ^ 12 := by
    have e2 : df = (1 - P) * (1 + df) := by linear_combination hPd
    have hd1 : 1 + df ≤ 1 + 1 / 2 ^ 12 := by
      by_contra hc
      rw [not_le] at hc
      have : P * (1 + 1 / 2 ^ 12) < P * (1 + df) := mul_lt_mul_of_pos_left hc hP0
      rw [hPd] at this
      norm_num at this u2
      linarith
    have hd2 : 1 - 1 / 2 ^ 12 ≤ 1 + df := by
      by_contra hc
      rw [not_le] at hc
      have : P * (1 + df) < P * (1 - 1 / 2 ^ 12) := mul_lt_mul_of_pos_left hc hP0
      rw [hPd] at this
      norm_num at this u1
      linarith
    exact abs_le.mpr ⟨by linarith, by linarith⟩
  have h3 := correction_err true dt df n hdf hn
  rw [if_pos rfl, ← hP] at h3
  obtain ⟨r1, r2⟩ := abs_le.mp h3
  have r3 : (n : ℚ) / 2 ^ 34 < 1 / 2 ^ 13 := by norm_num at *; linarith
  have r4 : -(1 / 2 ^ 13) < (n : ℚ) / 2 ^ 34 := by norm_num at *; linarith
  rw [div_lt_iff₀ (by norm_num)] at r3
  rw [lt_div_iff₀ (by norm_num)] at r4
  rw [abs_lt]
  constructor
  · have : ((-2 ^ 21 : ℤ) : ℚ) < n := by push_cast; norm_num at r4 ⊢; linarith
    exact_mod_cast this
  · have : (n : ℚ) < ((2 ^ 21 : ℤ) : ℚ) := by push_cast; norm_num at r3 ⊢; linarith
    exact_mod_cast this

/-- **C124** Under the conditions of C120 (for the precompensation `d` at which the search succeeds), `fpfind -V 7` prints a line
with a number.  If freqcd accepts this number, `freqcd -i fin -o fout -f` with this number ends with status 0 on any file `inp` of
events of the target, and the events in the output, in units of 4 ps counted from the first event, are at the reference times
counted from that of the first event, up to the errors of fpfind for both events, the errors `q` of the clock, 3/2 units for every
1024 events and half a unit of the frequency. -/
theorem C124_pipeline (env : NumEnv) (henv : env.rnd = fl 53) (args : FpMainArgs) (hfull : args.precompFullscan = false)
    (hout : args.output % 8 = 7) (a b : List ℚ) (hin : Input env args a b) (pre post : List ℚ) (d : ℚ)
    (hp : precs env args = pre ++ d :: post) (hd : |fl 53 (1 + d) - 1| ≤ 1 / 2 ^ 9)
    (hpre : ∀ d' ∈ pre, Search env args a (precompensated env d' b) (.error .valueError))
    (j : Nat) (φ τ φ' τ' B E0 E1 : ℚ) (δ : Nat → ℚ) (w : Nat → Nat) (L : Nat)
    (hφ : 1 + φ = (1 + φ') * fl 53 (1 + d)) (hτ : τ = τ' * fl 53 (1 + d))
    (C : ClearRun (searchParams env args a (precompensated env d b)) (precompensated env d b) args.initialRes j φ' τ' B E0 E1 δ w L) :
    ∃ text n k, Returns (fun fuel => fpMain env fuel args) (.ok (some (text ++ ['\n']))) ∧ IntText text n ∧ k ≤ L ∧
      ∀ err : ℚ → ℚ, (∀ t, err t = pipelineError args (searchParams env args a (precompensated env d b)).sep B (δ k) k t) →
      (|φ| ≤ 1 / 2 ^ 14 → ∀ t, 0 < t → |targetClock φ' τ' t| ≤ B → |targetClock φ' τ' 0| ≤ B → err t + err 0 ≤ t / 2 ^ 15 → |n| < 2 ^ 21) ∧
      (|n| < 2 ^ 21 → ∀ (W : FWorld) (prog fin fout : Bytes) (legacy : Bool) (inp : Bytes), GoodName fin → GoodName fout → fin ≠ fout →
        W.files fin = some inp → W.writable fout = true → 8 ∣ inp.length → (times legacy inp).Pairwise (· ≤ ·) →
        ∀ (m : FMemory) (rounds : List Round), FMemory.Sized m → (∀ r ∈ rounds, FullRound r) → inp.length + 8192 ≤ 8192 * rounds.length →
        ∃ o out, Outcome W ([prog] ++ (if legacy then [[45, 120]] else []) ++ [[45, 105], fin, [45, 111], fout, [45, 102], textBytes text]) m rounds o ∧
          o.status = some 0 ∧ out = FOutcome.output o fout ∧ out.length = inp.length ∧ flags legacy out = flags legacy inp ∧
          ∀ (s q : ℚ) (i y T T0 : ℕ) (t t0 : ℚ), (times legacy out)[i]? = some y → (times legacy inp)[i]? = some T → (times legacy inp).head? = some T0 →
            0 ≤ t → 0 ≤ t0 → |targetClock φ' τ' t| ≤ B → |targetClock φ' τ' t0| ≤ B →
            |(T : ℚ) / 256 - s - targetClock φ τ t| ≤ q → |(T0 : ℚ) / 256 - s - targetClock φ τ t0| ≤ q →
            ∃ c : ℤ, (y : ℤ) = (T + c) % 2 ^ 54 ∧
              |((T : ℚ) + c - T0) / 256 - (t - t0)| < err t + err t0 + (2 + 1 / 2 ^ 6) * q +
                ((3 / 2 : ℚ) * rounds.length + |(T : ℚ) - T0| * (1 / 2 ^ 35 + 1 / 2 ^ 47)) / 256) := by
  obtain ⟨dt, df, k, h1, hdf, hlo, hk, h2⟩ := printed_core env henv args hfull a b hin pre post d hp hd hpre j φ τ φ' τ' B E0 E1 δ w L hφ hτ
    C
  obtain ⟨o1, o2⟩ := output7 args.output hout dt df
  obtain ⟨n, hn⟩ : ∃ n, (fpOutput (fl 53) 3 dt df).df = .inr n := by
    unfold fpOutput
    norm_num
  obtain ⟨text, f1, ⟨-, f2⟩ | ⟨x, t', f3, -⟩⟩ := C86_output args.output dt df hdf
  swap
  · rw [o2] at f3
    simp at f3
  rw [o1, hn] at f1
  rw [f2] at h1
  refine ⟨text, n, k, h1, f1, hk, fun err herr => ⟨?_, ?_⟩⟩
  · intro hφ t ht hB hB0 he
    have k1 := h2 _ _ rfl rfl t ht.le hB
    have k2 := h2 _ _ rfl rfl 0 le_rfl hB0
    refine inverse_range dt df φ τ t (err t) (err 0) n hlo hn hφ ht ?_ ?_ he
    · rw [herr]; exact k1
    · rw [herr]; exact k2
  intro hb W prog fin fout legacy inp g1 g2 hne hW hwr h8 hord m rounds hm hr hlen
  have hnum := numeral_of_int f1
  have hb' := abs_lt.mp hb
  have hsmall := inverse_small dt df n hlo hn hb
  obtain ⟨os, hos⟩ : ∃ os : List Item, os = (if legacy then [Item.flag 120] else []) ++ [Item.arg 105 fin, Item.arg 111 fout, Item.arg 102 (textBytes text)] :=
    ⟨_, rfl⟩
  have hfl : decide (Item.flag 120 ∈ os) = legacy := by
    rw [hos]; cases legacy <;> simp
  have la1 : lastArg 102 os = some (textBytes text) := by
    rw [hos]; cases legacy <;> simp [lastArg]
  have la2 : lastArg 70 os = none := by
    rw [hos]; cases legacy <;> simp [lastArg]
  have la3 : lastArg 105 os = some fin := by
    rw [hos]; cases legacy <;> simp [lastArg]
  have la4 : lastArg 111 os = some fout := by
    rw [hos]; cases legacy <;> simp [lastArg]
  have hwri : Written os ((if legacy then [[45, 120]] else []) ++ [[45, 105], fin, [45, 111], fout, [45, 102], textBytes text]) := by
    have base : Written [Item.arg 105 fin, Item.arg 111 fout, Item.arg 102 (textBytes text)] [[45, 105], fin, [45, 111], fout, [45, 102], textBytes text] :=
      Written.separate [] 105 fin _ _ (by simp) (by simp [ArgLetter]) (Written.separate [] 111 fout _ _ (by simp) (by simp [ArgLetter])
        (Written.separate [] 102 (textBytes text) _ _ (by simp) (by simp [ArgLetter]) Written.nil))
    rw [hos]
    cases legacy with
    | false => simpa using base
    | true =>
      have := Written.flags [120] _ _ (by simp) (by simp [FlagLetter]) base
      simpa using this
  have hsound : Sound os := by
    intro it hit
    rw [hos] at hit
    rcases List.mem_append.mp hit with h | h
    · have : it = Item.flag 120 := by
        cases legacy <;> simp at h
        exact h
      rw [this]
      exact Or.inl rfl
    · simp only [List.mem_cons, List.not_mem_nil, or_false] at h
      rcases h with rfl | rfl | rfl
      · exact Or.inl ⟨Or.inl rfl, g1⟩
      · exact Or.inl ⟨Or.inr (Or.inl rfl), g2⟩
      · exact Or.inr ⟨rfl, n, hnum, by omega, by omega⟩
  obtain ⟨o, p1, p2, -, -, p3, p4, p5⟩ := C94_regular_file W prog os _ hwri hsound n (by rw [la1]; exact hnum) hb
    (by rw [hos]; cases legacy <;> simp) la2 inp
    (by rw [la3]; unfold FWorld.input; simp [g1.1, hW]) (by intro v hv; rw [la3] at hv; simp at hv; rw [← hv, hW]; simp)
    (by
      intro v hv
      rw [la4, Option.some.injEq] at hv
      rw [← hv, la3]
      exact ⟨hwr, by simpa using hne⟩)
    h8 (by rw [hfl]; exact hord) m hm rounds hr hlen
  rw [hfl] at p4 p5
  obtain ⟨out, hO⟩ : ∃ out, out = FOutcome.output o ((lastArg 111 os).getD []) := ⟨_, rfl⟩
  rw [← hO] at p3 p4 p5
  refine ⟨o, out, ?_, p2, ?_, p3, p4, ?_⟩
  · simpa using p1
  · rw [hO, la4]; rfl
  intro s q i y T T0 t t0 hy hT hT0 ht ht0 hB hB0 hq hq0
  obtain ⟨c, e1, e2⟩ := p5 i y T T0 hy hT hT0
  refine ⟨c, e1, ?_⟩
  have e3 := combine _ _ _ _ _ _ _ e2 (correction_err true dt df n hsmall hn)
  have k1 := h2 _ _ rfl rfl t ht hB
  have k2 := h2 _ _ rfl rfl t0 ht0 hB0
  rw [herr t, herr t0]
  exact pipeline_arith df dt s q T T0 c t t0 _ _ _ _ _ _ hlo hq hq0 k1 k2 e3

/-- **C124** The same from conditions on the recordings (those of C120). -/
theorem C124_recordings (env : NumEnv) (henv : env.rnd = fl 53) (args : FpMainArgs) (hfull : args.precompFullscan = false)
    (hout : args.output % 8 = 7) (a b : List ℚ) (hin : Input env args a b) (pre post : List ℚ) (d : ℚ)
    (hp : precs env args = pre ++ d :: post) (hd : |fl 53 (1 + d) - 1| ≤ 1 / 2 ^ 9)
    (hpre : ∀ d' ∈ pre, Search env args a (precompensated env d' b) (.error .valueError))
    (j : Nat) (φ τ φ' τ' B E0 E1 η : ℚ) (δ : Nat → ℚ) (w : Nat → Nat) (L : Nat)
    (hφ : 1 + φ = (1 + φ') * fl 53 (1 + d)) (hτ : τ = τ' * fl 53 (1 + d))
    (C : ClearInput (searchParams env args a (precompensated env d b)) (precompensated env d b) args.initialRes j φ' τ' B E0 E1 η δ w L) :
    ∃ text n k, Returns (fun fuel => fpMain env fuel args) (.ok (some (text ++ ['\n']))) ∧ IntText text n ∧ k ≤ L ∧
      ∀ err : ℚ → ℚ, (∀ t, err t = pipelineError args (searchParams env args a (precompensated env d b)).sep B (δ k) k t) →
      (|φ| ≤ 1 / 2 ^ 14 → ∀ t, 0 < t → |targetClock φ' τ' t| ≤ B → |targetClock φ' τ' 0| ≤ B → err t + err 0 ≤ t / 2 ^ 15 → |n| < 2 ^ 21) ∧
      (|n| < 2 ^ 21 → ∀ (W : FWorld) (prog fin fout : Bytes) (legacy : Bool) (inp : Bytes), GoodName fin → GoodName fout → fin ≠ fout →
        W.files fin = some inp → W.writable fout = true → 8 ∣ inp.length → (times legacy inp).Pairwise (· ≤ ·) →
        ∀ (m : FMemory) (rounds : List Round), FMemory.Sized m → (∀ r ∈ rounds, FullRound r) → inp.length + 8192 ≤ 8192 * rounds.length →
        ∃ o out, Outcome W ([prog] ++ (if legacy then [[45, 120]] else []) ++ [[45, 105], fin, [45, 111], fout, [45, 102], textBytes text]) m rounds o ∧
          o.status = some 0 ∧ out = FOutcome.output o fout ∧ out.length = inp.length ∧ flags legacy out = flags legacy inp ∧
          ∀ (s q : ℚ) (i y T T0 : ℕ) (t t0 : ℚ), (times legacy out)[i]? = some y → (times legacy inp)[i]? = some T → (times legacy inp).head? = some T0 →
            0 ≤ t → 0 ≤ t0 → |targetClock φ' τ' t| ≤ B → |targetClock φ' τ' t0| ≤ B →
            |(T : ℚ) / 256 - s - targetClock φ τ t| ≤ q → |(T0 : ℚ) / 256 - s - targetClock φ τ t0| ≤ q →
            ∃ c : ℤ, (y : ℤ) = (T + c) % 2 ^ 54 ∧
              |((T : ℚ) + c - T0) / 256 - (t - t0)| < err t + err t0 + (2 + 1 / 2 ^ 6) * q +
                ((3 / 2 : ℚ) * rounds.length + |(T : ℚ) - T0| * (1 / 2 ^ 35 + 1 / 2 ^ 47)) / 256) :=
  C124_pipeline env henv args hfull hout a b hin pre post d hp hd hpre j φ τ φ' τ' B E0 E1 δ w L hφ hτ (C120_clear _ _ _ _ _ _ _ _ _ _ _ _ _ C)

/-- The recordings of the example of C106, with the output for freqcd. -/
def pipeArgs : FpMainArgs := { printArgs with output := 7 }

/-- The recording of the target from the first coincidence. -/
def pipeFile : Bytes := (printArgs.target.getD []).drop 8

/-- fpfind prints a number that freqcd accepts, and freqcd changes the recording of the target, whose clock is fast by 10^-5, to one
in which every event is at the time of the reference clock, counted from the first event, up to 11 ns. -/
theorem pipe_instance : ∃ text n, Returns (fun fuel => fpMain printEnv fuel pipeArgs) (.ok (some (text ++ ['\n']))) ∧ IntText text n ∧
    ∃ o, Outcome ⟨fun v => if v = [97] then some pipeFile else none, fun _ => true, []⟩
        [[], [45, 105], [97], [45, 111], [98], [45, 102], textBytes text]
        ⟨List.replicate 8192 0, List.replicate 8192 0, List.replicate 100 0, 7, 9⟩ [rd 8192, rd 8192] o ∧ o.status = some 0 ∧
      ∀ (i y T T0 : ℕ) (t t0 : ℚ), (times false (FOutcome.output o [98]))[i]? = some y → (times false pipeFile)[i]? = some T →
        (times false pipeFile).head? = some T0 → 0 ≤ t → t ≤ 1000100 → 0 ≤ t0 → t0 ≤ 1000100 →
        |(T : ℚ) / 256 - targetClock (1 / 100000) 3 t| ≤ 1 / 5 → |(T0 : ℚ) / 256 - targetClock (1 / 100000) 3 t0| ≤ 1 / 5 →
        ∃ c : ℤ, (y : ℤ) = (T + c) % 2 ^ 54 ∧ |((T : ℚ) + c - T0) / 256 - (t - t0)| < 11 := by
  have hF : fl 53 (1 + 0) = 1 := by decide +kernel
  have hclear : ClearRun (searchParams printEnv pipeArgs printA (precompensated printEnv 0 printB)) (precompensated printEnv 0 printB)
      pipeArgs.initialRes 0 (1 / 100000) 3 (2 * 10 ^ 6) (23 / 10) (13 / 10) (fun _ => 1 / 5) (fun _ => 3) 1 := by
    have h1 : searchParams printEnv pipeArgs printA (precompensated printEnv 0 printB) =
        searchParams printEnv printArgs printA (precompensated printEnv 0 printB) := rfl
    rw [h1, print_params, print_target]
    have : ((pipeArgs.initialRes : Nat) : ℚ) = 2 := by norm_num [pipeArgs, printArgs]
    rw [this]
    exact print_run
  obtain ⟨text, n, k, h1, h2, hk, h3⟩ := C124_pipeline printEnv rfl pipeArgs rfl (by decide) printA printB print_input [] [] 0 rfl
    (by rw [hF]; norm_num) (by simp) 0 (1 / 100000) 3 (1 / 100000) 3 _ _ _ _ _ _ (by rw [hF]; ring) (by rw [hF]; ring) hclear
  have hsep : (searchParams printEnv pipeArgs printA (precompensated printEnv 0 printB)).sep = 1000000 := by
    have h1 : searchParams printEnv pipeArgs printA (precompensated printEnv 0 printB) =
        searchParams printEnv printArgs printA (precompensated printEnv 0 printB) := rfl
    rw [h1, print_params]
    rfl
  obtain ⟨g1, g2⟩ := h3 _ (fun _ => rfl)
  rw [hsep] at g1 g2
  have herr : ∀ t : ℚ, 0 ≤ t → t ≤ 1000100 → pipelineError pipeArgs 1000000 (2 * 10 ^ 6) (1 / 5) k t ≤ 4 := by
    intro t ht ht'
    unfold pipelineError
    have hk : (k : ℚ) ≤ 1 := by exact_mod_cast hk
    have hk0 : (0 : ℚ) ≤ k := by positivity
    have hR : ((k : ℚ) + 1) * (2 * 10 ^ 6 + (k + 1) * (101 * 10 ^ 6)) / 2 ^ 49 ≤ 1 / 10000 := by
      rw [div_le_iff₀ (by norm_num)]
      nlinarith
    have hR0 : 0 ≤ ((k : ℚ) + 1) * (2 * 10 ^ 6 + (k + 1) * (101 * 10 ^ 6)) / 2 ^ 49 := by positivity
    generalize ((k : ℚ) + 1) * (2 * 10 ^ 6 + (k + 1) * (101 * 10 ^ 6)) / 2 ^ 49 = R at *
    have hq : t / 1000000 ≤ 1 + 1 / 10000 := by rw [div_le_iff₀ (by norm_num)]; norm_num; linarith
    have hq0 : 0 ≤ t / 1000000 := by positivity
    generalize t / 1000000 = q at *
    simp only [pipeArgs, printArgs]
    norm_num
    nlinarith
  have hclock : ∀ t : ℚ, 0 ≤ t → t ≤ 1000100 → |targetClock (1 / 100000) 3 t| ≤ 2 * 10 ^ 6 := by
    intro t ht ht'
    unfold targetClock
    rw [abs_of_nonneg (by positivity)]
    linarith
  have hn : |n| < 2 ^ 21 := by
    refine g1 (by norm_num [abs_of_pos]) 1000000 (by norm_num) (hclock _ (by norm_num) (by norm_num)) (hclock _ (by norm_num) (by norm_num)) ?_
    have := herr 1000000 (by norm_num) (by norm_num)
    have := herr 0 (by norm_num) (by norm_num)
    norm_num
    linarith
  have hfull : FullRound (rd 8192) := ⟨rfl, ⟨8192, rfl, le_rfl⟩, rfl, 8192, rfl, le_rfl⟩
  have hlen : pipeFile.length = 80 := by decide
  obtain ⟨o, out, q1, q2, q3, -, -, q4⟩ := g2 hn ⟨fun v => if v = [97] then some pipeFile else none, fun _ => true, []⟩ [] [97] [98] false pipeFile
    ⟨by simp, by simp, by decide⟩ ⟨by simp, by simp, by decide⟩ (by decide) (by simp) rfl (by rw [hlen]; decide) (by decide)
    ⟨List.replicate 8192 0, List.replicate 8192 0, List.replicate 100 0, 7, 9⟩ [rd 8192, rd 8192]
    ⟨List.length_replicate, List.length_replicate, List.length_replicate⟩ (by simp [hfull]) (by rw [hlen]; simp)
  refine ⟨text, n, h1, h2, o, q1, q2, fun i y T T0 t t0 y1 y2 y3 a1 a2 a3 a4 b1 b2 => ?_⟩
  subst q3
  obtain ⟨c, c1, c2⟩ := q4 0 (1 / 5) i y T T0 t t0 y1 y2 y3 a1 a3 (hclock t a1 a2) (hclock t0 a3 a4) (by rw [sub_zero]; exact b1) (by rw [sub_zero]; exact b2)
  refine ⟨c, c1, c2.trans_le ?_⟩
  have d1 := herr t a1 a2
  have d2 := herr t0 a3 a4
  have key : |(T : ℚ) - T0| ≤ 10 ^ 9 := by
    have hall : ∀ x ∈ times false pipeFile, x ≤ 10 ^ 9 := by decide
    have m1 := hall T (List.mem_of_getElem? y2)
    have m2 := hall T0 (List.mem_of_head? y3)
    have m1' : (T : ℚ) ≤ 10 ^ 9 := by exact_mod_cast m1
    have m2' : (T0 : ℚ) ≤ 10 ^ 9 := by exact_mod_cast m2
    rw [abs_le]
    constructor <;> linarith [(Nat.cast_nonneg T : (0 : ℚ) ≤ T), (Nat.cast_nonneg T0 : (0 : ℚ) ≤ T0)]
  norm_num
  norm_num at key
  linarith

/-- The premises on the times hold, e.g. for the last event, at reference time 1000070, with the first one at 24. -/
example : ∃ T T0 : ℕ, (times false pipeFile)[9]? = some T ∧ (times false pipeFile).head? = some T0 ∧
    |(T : ℚ) / 256 - targetClock (1 / 100000) 3 1000070| ≤ 1 / 5 ∧ |(T0 : ℚ) / 256 - targetClock (1 / 100000) 3 24| ≤ 1 / 5 := by
  refine ⟨256021248, 6944, by decide, by decide, ?_, ?_⟩ <;> norm_num [targetClock, abs_le]

end Fp
