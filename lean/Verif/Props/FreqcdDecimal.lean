import Verif.Props.FreqcdProgram

/-! # C134: corrections in decimal units, from the command line to the output -/
namespace Fp
open Spec

/-- Truncation of the decimal correction changes it by less than one unit, and never makes it larger. -/
theorem trunc_near (n : Int) (f : Int) (x : ℚ) (hx : (n : ℚ) * 2 ^ 34 / 10 ^ 10 = x) (hf : f = if 0 ≤ n then ⌊x⌋ else ⌈x⌉) :
    |(f : ℚ) - x| < 1 ∧ |(f : ℚ)| ≤ |x| ∧ 0 ≤ (f : ℚ) * n := by
  split at hf
  · next h =>
    have hn : (0 : ℚ) ≤ n := by exact_mod_cast h
    have hx0 : 0 ≤ x := by rw [← hx]; positivity
    have h1 := Int.floor_le x
    have h2 := Int.lt_floor_add_one x
    have h3 : (0 : ℚ) ≤ (⌊x⌋ : ℤ) := by exact_mod_cast Int.floor_nonneg.mpr hx0
    rw [hf]
    refine ⟨by rw [abs_lt]; constructor <;> linarith, by rw [abs_of_nonneg h3, abs_of_nonneg hx0]; exact h1, by positivity⟩
  · next h =>
    have hn : (n : ℚ) ≤ 0 := by exact_mod_cast (by omega : n ≤ 0)
    have hx0 : x ≤ 0 := by rw [← hx]; linarith
    have h1 := Int.le_ceil x
    have h2 := Int.ceil_lt_add_one x
    have h3 : ((⌈x⌉ : ℤ) : ℚ) ≤ 0 := by exact_mod_cast Int.ceil_le.mpr (by simpa using hx0)
    rw [hf]
    refine ⟨by rw [abs_lt]; constructor <;> linarith, by rw [abs_of_nonpos h3, abs_of_nonpos hx0]; linarith, mul_nonneg_of_nonpos_of_nonpos h3 hn⟩

/-- **C134**: `freqcd -d -f n` on a recording with whole events in order of time, with the options in any form and order, keeps all
events and their detector bits, and moves an event at `t` by `(t - t0) * n / 10^10` up to 1.5 units for every 1024 events and one
part in `2^34` of `t - t0`. -/
theorem C134_decimal (w : FWorld) (prog : Bytes) (os : List Item) (args : List Bytes) (hw : Written os args) (hs : Sound os) (n : Int) (v : Bytes)
    (hl : lastArg 102 os = some v) (hv : Numeral v n) (hrange : |n| ≤ 1220703) (hd : Item.flag 100 ∈ os)
    (hF : lastArg 70 os = none) (inp : Bytes) (hin : FWorld.input w ((lastArg 105 os).getD []) = inp)
    (hi : ∀ v, lastArg 105 os = some v → w.files v ≠ none)
    (ho : ∀ v, lastArg 111 os = some v → w.writable v = true ∧ lastArg 105 os ≠ some v)
    (h8 : 8 ∣ inp.length) (hord : (times (decide (Item.flag 120 ∈ os)) inp).Pairwise (· ≤ ·))
    (m : FMemory) (hm : FMemory.Sized m) (rounds : List Round) (hr : ∀ r ∈ rounds, FullRound r) (hlen : inp.length + 8192 ≤ 8192 * rounds.length) :
    ∃ o, Outcome w (prog :: args) m rounds o ∧ o.status = some 0 ∧
      (∀ v, lastArg 111 os = some v → o.stdout = []) ∧ (∀ v, lastArg 111 os ≠ some v → v ≠ [] → o.files v = w.files v) ∧
      (FOutcome.output o ((lastArg 111 os).getD [])).length = inp.length ∧
      flags (decide (Item.flag 120 ∈ os)) (FOutcome.output o ((lastArg 111 os).getD [])) = flags (decide (Item.flag 120 ∈ os)) inp ∧
      ∀ (i : Nat) (y t t0 : ℕ), (times (decide (Item.flag 120 ∈ os)) (FOutcome.output o ((lastArg 111 os).getD [])))[i]? = some y →
        (times (decide (Item.flag 120 ∈ os)) inp)[i]? = some t → (times (decide (Item.flag 120 ∈ os)) inp).head? = some t0 →
        ∃ c : ℤ, (y : ℤ) = (t + c) % 2 ^ 54 ∧
          |(c : ℚ) - ((t : ℚ) - t0) * n / 10 ^ 10| < (3 / 2 : ℚ) * (rounds.length : ℚ) + |(t : ℚ) - t0| / 2 ^ 34 := by
  have hof : (BitVec.ofInt 32 n).toInt = n := by
    rw [abs_le] at hrange
    rw [BitVec.toInt_ofInt]
    exact Int.bmod_eq_of_le (by omega) (by omega)
  have hends := C53_meaning prog os args hw hs n (by rw [hl]; exact hv)
  simp only [if_pos hd] at hends
  have hlt := (C52_range_partial (BitVec.ofInt 32 n) (by rw [hof]; omega)).mpr (by rw [hof]; exact hrange)
  have hval := C52_value (BitVec.ofInt 32 n) (by rw [hof]; exact hrange)
  rw [hof] at hval
  rw [if_pos (Or.inl hlt)] at hends
  obtain ⟨o, h1, h2, h3, h4, h5, h6, h7⟩ := regular_file w prog os args hs _ hends hlt hF inp hin hi ho h8 hord m hm rounds hr hlen
  refine ⟨o, h1, h2, h3, h4, h5, h6, fun i y t t0 hy ht ht0 => ?_⟩
  obtain ⟨c, hc, hb⟩ := h7 i y t t0 hy ht ht0
  refine ⟨c, hc, ?_⟩
  obtain ⟨k1, -, -⟩ := trunc_near n _ _ rfl hval
  generalize ((decimalCorr (BitVec.ofInt 32 n)).toInt : ℚ) = f at *
  have e : (c : ℚ) - ((t : ℚ) - t0) * n / 10 ^ 10 = ((c : ℚ) - ((t : ℚ) - t0) * f / 2 ^ 34) + ((t : ℚ) - t0) * (f - n * 2 ^ 34 / 10 ^ 10) / 2 ^ 34 := by
    field_simp
    ring
  have k2 : |((t : ℚ) - t0) * (f - n * 2 ^ 34 / 10 ^ 10) / 2 ^ 34| ≤ |(t : ℚ) - t0| / 2 ^ 34 := by
    rw [abs_div, abs_mul, abs_of_pos (show (0 : ℚ) < 2 ^ 34 by norm_num)]
    exact div_le_div_of_nonneg_right (mul_le_of_le_one_right (abs_nonneg _) k1.le) (by norm_num)
  rw [e]
  calc _ ≤ _ := abs_add_le _ _
    _ < _ := add_lt_add_of_lt_of_le hb k2

/-- **C134**, refusal: a decimal correction beyond 1220703 (and below 1.25e9) ends the program before it does anything. -/
theorem C134_refused_partial (w : FWorld) (prog : Bytes) (os : List Item) (args : List Bytes) (hw : Written os args) (hs : Sound os) (n : Int) (v : Bytes)
    (hl : lastArg 102 os = some v) (hv : Numeral v n) (hd : Item.flag 100 ∈ os) (h1 : 1220703 < |n|) (h2 : |n| < 1250000000)
    (m : FMemory) (rounds : List Round) : ∃ st, st ≠ 0 ∧ st < 256 ∧ Outcome w (prog :: args) m rounds ⟨some st, w.files, []⟩ :=
  (C94_not_started_partial w (prog :: args) m rounds).1 _ ((C52_command_line_partial prog os args hw hs n v hl hv hd h2).2 h1) (by simp)

/-- The options of the README. -/
theorem readme_freqcd : Written [Item.flag 120, Item.flag 100, Item.arg 102 [53, 54, 56]] [[45, 120], [45, 100, 102], [53, 54, 56]] ∧
    Sound [Item.flag 120, Item.flag 100, Item.arg 102 [53, 54, 56]] ∧ Numeral [53, 54, 56] 568 := by
  have hv : Numeral [53, 54, 56] 568 := ⟨[], [], [53, 54, 56], rfl, by simp, by simp, by decide, Or.inl ⟨rfl, by decide⟩⟩
  refine ⟨Written.flags [120] _ _ (by simp) (by simp [FlagLetter])
    (Written.separate [100] 102 _ [] [] (by simp [FlagLetter]) (by simp [ArgLetter]) Written.nil), ?_, hv⟩
  intro it hit
  simp only [List.mem_cons, List.not_mem_nil, or_false] at hit
  rcases hit with rfl | rfl | rfl
  · exact Or.inl rfl
  · exact Or.inr rfl
  · exact Or.inr ⟨rfl, _, hv, by norm_num, by norm_num⟩

/-- **C134**, the README: `freqcd -x -df 568 < TIMESTAMPS` writes the recording with times that run faster by 56.8 ppb to the
standard output, and changes no file. -/
theorem C134_readme (w : FWorld) (prog : Bytes) (h8 : 8 ∣ w.stdin.length) (hord : (times true w.stdin).Pairwise (· ≤ ·))
    (m : FMemory) (hm : FMemory.Sized m) (rounds : List Round) (hr : ∀ r ∈ rounds, FullRound r) (hlen : w.stdin.length + 8192 ≤ 8192 * rounds.length) :
    ∃ o, Outcome w [prog, [45, 120], [45, 100, 102], [53, 54, 56]] m rounds o ∧ o.status = some 0 ∧ (∀ v, v ≠ [] → o.files v = w.files v) ∧
      o.stdout.length = w.stdin.length ∧ flags true o.stdout = flags true w.stdin ∧
      ∀ (i : Nat) (y t t0 : ℕ), (times true o.stdout)[i]? = some y → (times true w.stdin)[i]? = some t → (times true w.stdin).head? = some t0 →
        ∃ c : ℤ, (y : ℤ) = (t + c) % 2 ^ 54 ∧
          |(c : ℚ) - ((t : ℚ) - t0) * 568 / 10 ^ 10| < (3 / 2 : ℚ) * (rounds.length : ℚ) + |(t : ℚ) - t0| / 2 ^ 34 := by
  obtain ⟨hw, hs, hv⟩ := readme_freqcd
  obtain ⟨o, h1, h2, -, h4, h5, h6, h7⟩ := C134_decimal w prog _ _ hw hs 568 _ rfl hv (by norm_num) (by simp) rfl w.stdin rfl
    (by intro v hv; simp [lastArg] at hv) (by intro v hv; simp [lastArg] at hv) h8 (by simpa using hord) m hm rounds hr hlen
  have hx : decide (Item.flag 120 ∈ [Item.flag 120, Item.flag 100, Item.arg 102 [53, 54, 56]]) = true := by simp
  rw [hx] at h6 h7
  refine ⟨o, h1, h2, fun v hv => h4 v (by simp [lastArg]) hv, h5, h6, ?_⟩
  intro i y t t0 a b c
  simpa using h7 i y t t0 a b c

/-- Two events, 2^31 units apart. -/
example : ∃ o, Outcome ⟨fun _ => none, fun _ => false, [0, 0, 0, 0, 5, 0, 0, 0, 0, 0, 32, 0, 6, 0, 0, 0]⟩
    [[], [45, 120], [45, 100, 102], [53, 54, 56]]
    ⟨List.replicate 8192 0, List.replicate 8192 0, List.replicate 100 0, 7, 9⟩ [rd 8192, rd 8192] o ∧ o.status = some 0 ∧ o.stdout.length = 16 := by
  have hfull : FullRound (rd 8192) := ⟨rfl, ⟨8192, rfl, le_rfl⟩, rfl, 8192, rfl, le_rfl⟩
  obtain ⟨o, h1, h2, -, h5, -⟩ := C134_readme ⟨fun _ => none, fun _ => false, [0, 0, 0, 0, 5, 0, 0, 0, 0, 0, 32, 0, 6, 0, 0, 0]⟩ []
    (by decide) (by decide) ⟨List.replicate 8192 0, List.replicate 8192 0, List.replicate 100 0, 7, 9⟩
    ⟨List.length_replicate, List.length_replicate, List.length_replicate⟩ [rd 8192, rd 8192] (by simp [hfull]) (by simp)
  exact ⟨o, h1, h2, h5⟩

/-- `-df 2000000` is refused. -/
example (w : FWorld) (m : FMemory) (rounds : List Round) : ∃ st, st ≠ 0 ∧ st < 256 ∧
    Outcome w [[], [45, 100, 102], [50, 48, 48, 48, 48, 48, 48]] m rounds ⟨some st, w.files, []⟩ := by
  have hv : Numeral [50, 48, 48, 48, 48, 48, 48] 2000000 :=
    ⟨[], [], [50, 48, 48, 48, 48, 48, 48], rfl, by simp, by simp, by decide, Or.inl ⟨rfl, by decide⟩⟩
  refine C134_refused_partial w [] [Item.flag 100, Item.arg 102 [50, 48, 48, 48, 48, 48, 48]] _
    (Written.separate [100] 102 _ [] [] (by simp [FlagLetter]) (by simp [ArgLetter]) Written.nil) ?_ 2000000 _ rfl hv (by simp) (by norm_num) (by norm_num) m rounds
  intro it hit
  simp only [List.mem_cons, List.not_mem_nil, or_false] at hit
  rcases hit with rfl | rfl
  · exact Or.inr rfl
  · exact Or.inr ⟨rfl, _, hv, by norm_num, by norm_num⟩

end Fp
