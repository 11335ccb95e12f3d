import Verif.Lemmas.FpFind
import Verif.Lemmas.Detune
import Verif.Spec.FpRun
import Verif.Props.FpText
import Verif.Props.FpFind
import Verif.Props.FpMain
import Verif.Props.FpScanRounded

/-! Helper lemmas for `Verif/Props/FpRun.lean`. -/
namespace Fp
open Spec

theorem timeFreq_returns {P : TFParams} {bts : List ℚ} {res : ℚ} {N : Nat} {r : TFResult} (h : timeFreq P N bts res = some r) :
    Returns (fun fuel => timeFreq P fuel bts res) r := ⟨N, fun M hM => runLoop_more _ N M hM _ _ h⟩

theorem call_eq (env : NumEnv) (args : FpMainArgs) {a b : List ℚ} (ha : a ≠ []) (hb : b ≠ []) (fuel : Nat) :
    args.call env fuel a b = (timeFreq (searchParams env args a b) fuel b args.initialRes).map fun r => r.map fun r => (r.1, r.2.1) := by
  unfold FpMainArgs.call tfEndTime
  rw [List.getLast?_eq_getLast_of_ne_nil ha, List.getLast?_eq_getLast_of_ne_nil hb]
  have : args.params env a (min (a.getLast ha) (b.getLast hb)) = searchParams env args a b := by
    unfold FpMainArgs.params searchParams FpArgs.ta
    congr 1
    · rw [List.getLastD_eq_getLast?, List.getLastD_eq_getLast?, List.getLast?_eq_getLast_of_ne_nil ha, List.getLast?_eq_getLast_of_ne_nil hb]
      rfl
  simp only [this]

theorem precomp_ne {env : NumEnv} {d : ℚ} {b : List ℚ} (hb : b ≠ []) : precompensated env d b ≠ [] := by
  simpa [precompensated] using hb

theorem precomp_eq (env : NumEnv) (d : ℚ) (b : List ℚ) :
    (b.map fun t => env.rndA (env.rndA (t - 0) / env.rnd (1 + d))) = precompensated env d b := by
  simp [precompensated]

/-- The scan has found something. -/
theorem scanF_ok {env : NumEnv} {tf : List ℚ → Option (Except PyErr (ℚ × ℚ))} {bob : List ℚ} {full : Bool} {ps : List ℚ} {dt df : ℚ}
    (h : fpfindScanF env.rnd env.rndA tf bob full ps = some (.ok (dt, df))) :
    full = false ∧ ∃ pre df0 post dt1 df1, ps = pre ++ df0 :: post ∧
      (∀ d ∈ pre, tf (precompensated env d bob) = some (.error .valueError)) ∧ tf (precompensated env df0 bob) = some (.ok (dt1, df1)) ∧
      dt = env.rnd (0 + env.rnd (env.rnd (1 + df0) * dt1)) ∧ df = env.rnd (env.rnd (env.rnd (1 + df0) * env.rnd (1 + df1)) - 1) := by
  induction ps with
  | nil => simp [fpfindScanF] at h
  | cons p ps ih =>
    unfold fpfindScanF at h
    simp only [precomp_eq] at h
    split at h
    · simp at h
    · rename_i hp
      obtain ⟨hf, pre, df0, post, dt1, df1, rfl, h1, h2⟩ := ih h
      refine ⟨hf, p :: pre, df0, post, dt1, df1, rfl, ?_, h2⟩
      intro d hd
      rcases List.mem_cons.mp hd with rfl | hd
      · exact hp
      · exact h1 d hd
    · simp at h
    · rename_i dt1 df1 hp
      cases full with
      | true =>
        simp only [if_true] at h
        exact absurd (ih h).1 (by simp)
      | false =>
        simp only [Bool.false_eq_true, if_false, Option.some.injEq, Except.ok.injEq, Prod.mk.injEq] at h
        exact ⟨rfl, [], p, ps, dt1, df1, rfl, by simp, hp, h.1.symm, h.2.symm⟩

theorem scanF_run {env : NumEnv} {tf : List ℚ → Option (Except PyErr (ℚ × ℚ))} {bob : List ℚ} {pre post : List ℚ} {df0 dt1 df1 : ℚ}
    (h1 : ∀ d ∈ pre, tf (precompensated env d bob) = some (.error .valueError)) (h2 : tf (precompensated env df0 bob) = some (.ok (dt1, df1))) :
    fpfindScanF env.rnd env.rndA tf bob false (pre ++ df0 :: post) =
      some (.ok (env.rnd (0 + env.rnd (env.rnd (1 + df0) * dt1)), env.rnd (env.rnd (env.rnd (1 + df0) * env.rnd (1 + df1)) - 1))) := by
  induction pre with
  | nil =>
    rw [List.nil_append]
    unfold fpfindScanF
    simp only [precomp_eq, h2, Bool.false_eq_true, if_false]
  | cons p pre ih =>
    rw [List.cons_append]
    unfold fpfindScanF
    simp only [precomp_eq, h1 p (by simp)]
    exact ih fun d hd => h1 d (by simp [hd])

theorem scanF_none {env : NumEnv} {tf : List ℚ → Option (Except PyErr (ℚ × ℚ))} {bob : List ℚ} {full : Bool} {ps : List ℚ}
    (h1 : ∀ d ∈ ps, tf (precompensated env d bob) = some (.error .valueError)) :
    fpfindScanF env.rnd env.rndA tf bob full ps = some (.error .valueError) := by
  induction ps with
  | nil => rfl
  | cons p ps ih =>
    unfold fpfindScanF
    simp only [precomp_eq, h1 p (by simp)]
    exact ih fun d hd => h1 d (by simp [hd])

theorem scanF_term {env : NumEnv} {tf : Nat → List ℚ → Option (Except PyErr (ℚ × ℚ))} {bob : List ℚ} (full : Bool) {ps : List ℚ}
    (h : ∀ d ∈ ps, ∃ r, Returns (fun fuel => tf fuel (precompensated env d bob)) r) :
    ∃ r, Returns (fun fuel => fpfindScanF env.rnd env.rndA (tf fuel) bob full ps) r := by
  induction ps with
  | nil => exact ⟨.error .valueError, 0, fun _ _ => rfl⟩
  | cons p ps ih =>
    obtain ⟨r, N, hr⟩ := h p (by simp)
    obtain ⟨r', N', hr'⟩ := ih fun d hd => h d (by simp [hd])
    by_cases hv : r = .error .valueError ∨ (full = true ∧ ∃ x, r = .ok x)
    · refine ⟨r', max N N', fun fuel hf => ?_⟩
      show fpfindScanF _ _ _ _ _ (p :: ps) = _
      unfold fpfindScanF
      have := hr fuel (le_of_max_le_left hf)
      rcases hv with rfl | ⟨rfl, x, rfl⟩
      · simp only [precomp_eq, this]
        exact hr' fuel (le_of_max_le_right hf)
      · simp only [precomp_eq, this, if_true]
        exact hr' fuel (le_of_max_le_right hf)
    · push Not at hv
      cases r with
      | error e =>
        refine ⟨.error e, N, fun fuel hf => ?_⟩
        show fpfindScanF _ _ _ _ _ (p :: ps) = _
        unfold fpfindScanF
        simp only [precomp_eq, hr fuel hf]
        split <;> simp_all
      | ok x =>
        have : full = false := by
          cases full with
          | false => rfl
          | true => exact absurd rfl (hv.2 rfl x)
        subst this
        refine ⟨.ok (env.rnd (0 + env.rnd (env.rnd (1 + p) * x.1)), env.rnd (env.rnd (env.rnd (1 + p) * env.rnd (1 + x.2)) - 1)), N, fun fuel hf => ?_⟩
        show fpfindScanF _ _ _ _ _ (p :: ps) = _
        unfold fpfindScanF
        simp only [precomp_eq, hr fuel hf, Bool.false_eq_true, if_false]

theorem fpMain_input {env : NumEnv} {args : FpMainArgs} {a b : List ℚ} (ha : a ≠ []) (hb : b ≠ []) {fuel : Nat}
    (h : mainInput env.rnd env.rndA fuel args.toFpArgs = some (.ok (some [a, b]))) :
    fpMain env fuel args = match fpfindScanF env.rnd env.rndA (args.call env fuel a) b args.precompFullscan (precs env args) with
      | none => none
      | some (.error e) => some (.error e)
      | some (.ok (dt, df)) => some (.ok (some (fpLine (fpOutput env.rnd args.output dt df)))) := by
  unfold fpMain
  rw [h]
  simp only [List.getD_cons_zero, List.getD_cons_succ, ha, hb, or_self, if_false]
  rfl

theorem search_call {env : NumEnv} {args : FpMainArgs} {a b : List ℚ} (ha : a ≠ []) (hb : b ≠ []) {r : TFResult} (h : Search env args a b r) :
    Returns (fun fuel => args.call env fuel a b) (r.map fun r => (r.1, r.2.1)) := by
  obtain ⟨N, h⟩ := h
  refine ⟨N, fun fuel hf => ?_⟩
  simp only [call_eq env args ha hb, h fuel hf, Option.map_some]

theorem call_search {env : NumEnv} {args : FpMainArgs} {a b : List ℚ} (ha : a ≠ []) (hb : b ≠ []) {fuel : Nat} {r : Except PyErr (ℚ × ℚ)}
    (h : args.call env fuel a b = some r) : ∃ r', Search env args a b r' ∧ r = r'.map fun r => (r.1, r.2.1) := by
  rw [call_eq env args ha hb, Option.map_eq_some_iff] at h
  obtain ⟨r', h1, h2⟩ := h
  exact ⟨r', timeFreq_returns h1, h2.symm⟩

theorem common_fuel {α : Type} {f : α → Nat → Option (Except PyErr (ℚ × ℚ))} {r : Except PyErr (ℚ × ℚ)} {l : List α}
    (h : ∀ d ∈ l, Returns (f d) r) : ∃ N, ∀ fuel, N ≤ fuel → ∀ d ∈ l, f d fuel = some r := by
  induction l with
  | nil => exact ⟨0, by simp⟩
  | cons d l ih =>
    obtain ⟨N, hN⟩ := h d (by simp)
    obtain ⟨M, hM⟩ := ih fun d hd => h d (by simp [hd])
    refine ⟨max N M, fun fuel hf d' hd' => ?_⟩
    rcases List.mem_cons.mp hd' with rfl | hd'
    · exact hN fuel (le_of_max_le_left hf)
    · exact hM fuel (le_of_max_le_right hf) d' hd'

/-- A double within 2^-12 of 1 is recovered from its distance to 1. -/
theorem fl_sub_one {f : ℚ} (hf : fl 53 f = f) (h : |fl 53 (f - 1)| < 1 / 2 ^ 13) : fl 53 (f - 1) = f - 1 := by
  have h0 : |f - 1| < 1 / 2 := by
    by_contra hc
    push Not at hc
    have := C34_relErr.1 (f - 1)
    have h3 := abs_sub_abs_le_abs_sub (f - 1) (fl 53 (f - 1))
    rw [abs_sub_comm (f - 1) (fl 53 (f - 1))] at h3
    norm_num at this h
    linarith
  have hpos : (0 : ℚ) < f := by have := (abs_lt.mp h0).1; linarith
  have hlt : f < 2 := by have := (abs_lt.mp h0).2; linarith
  obtain ⟨k, hk⟩ : ∃ k : ℤ, f = k * 2 ^ (-53 : ℤ) := by
    rcases lt_or_ge f 1 with h1 | h1
    · have := fl_eval 53 f (-1) (by have := (abs_lt.mp h0).1; norm_num; linarith) (by norm_num; exact h1)
      rw [hf] at this
      exact ⟨_, this⟩
    · have := fl_eval 53 f 0 (by norm_num; exact h1) (by norm_num; exact hlt)
      rw [hf] at this
      refine ⟨rne (f / 2 ^ (0 - (((53 : ℕ) : ℤ) - 1))) * 2, this.trans ?_⟩
      push_cast
      generalize (rne (f / 2 ^ ((0 : ℤ) - (53 - 1))) : ℚ) = q
      norm_num
      ring
  have e : f - 1 = ((k - 2 ^ 53 : ℤ) : ℚ) * 2 ^ (-53 : ℤ) := by
    rw [hk]; push_cast; norm_num; ring
  rw [e]
  apply fl_exact
  have h4 : |((k - 2 ^ 53 : ℤ) : ℚ)| < 2 ^ 53 := by
    rw [e, abs_mul, abs_of_pos (show (0 : ℚ) < 2 ^ (-53 : ℤ) by positivity)] at h0
    norm_num at h0 ⊢
    linarith
  exact_mod_cast h4

theorem fl_one53 : fl 53 1 = 1 := by decide +kernel

/-- The result of the search in doubles: a double `f` near 1 and a double time. -/
theorem search_doubles {P : TFParams} (hr : P.rnd = fl 53) {bts : List ℚ} {res dt df : ℚ} {trace : List TFEntry}
    (h : Returns (fun fuel => timeFreq P fuel bts res) (.ok (dt, df, trace))) :
    fl 53 dt = dt ∧ ∃ f, fl 53 f = f ∧ df = fl 53 (f - 1) := by
  obtain ⟨N, hN⟩ := h
  have h1 := hN N le_rfl
  have id53 : ∀ x, fl 53 (fl 53 x) = fl 53 x := fl_idem 53 (by norm_num)
  have := runLoop_inv (tfStep P) (fun s => fl 53 s.dt = s.dt ∧ fl 53 s.f = s.f)
    (fun r => ∀ dt df trace, r = .ok (dt, df, trace) → fl 53 dt = dt ∧ ∃ f, fl 53 f = f ∧ df = fl 53 (f - 1))
    ?_ ?_ N _ _ ?_ h1
  · exact this dt df trace rfl
  · intro s s' hs hst
    rcases tfStep_inl P s s' hst with ⟨ph, rs, he⟩ | ⟨dt1, dur, hp, hl⟩
    · rw [he]
      exact hs
    · obtain ⟨df1, hd, hf, hres, he⟩ := tfLate_inl P s s' dt1 dur hl
      rw [he, hr]
      exact ⟨id53 _, id53 _⟩
  · intro s r hs hst dt df trace he
    rw [he] at hst
    obtain ⟨dt1, dur, hp, hl⟩ := tfStep_ok P s _ hst
    rcases tfLate_ok P s dt1 dur dt df trace hl with ⟨hi, e1, e2, e3⟩ | ⟨df1, hd, hdf, hres, e1, e2, e3⟩
    · rw [e1, e2, hr]
      exact ⟨hs.1, s.f, hs.2, rfl⟩
    · rw [e1, e2, hr]
      exact ⟨id53 _, _, id53 _, rfl⟩
  · exact ⟨fl_zero 53, fl_one53⟩

theorem plain_result {dt f : ℚ} (hdt : fl 53 dt = dt) (hf : fl 53 f = f) (hb : |fl 53 (f - 1)| < 1 / 2 ^ 13) :
    fl 53 (fl 53 (1 + 0) * dt) = dt ∧ fl 53 (fl 53 (fl 53 (1 + 0) * fl 53 (1 + fl 53 (f - 1))) - 1) = fl 53 (f - 1) := by
  have e := fl_sub_one hf hb
  rw [add_zero, fl_one53, one_mul, one_mul, hdt, e, add_sub_cancel, hf, hf, e]
  exact ⟨rfl, rfl⟩

theorem load_fuel (rnd : ℚ → ℚ) (args : FpArgs) (h : args.sendfiles = none ∨ args.t1files = none) (fuel : Nat) :
    loadInput rnd fuel args = loadInput rnd 0 args := by
  obtain ⟨s, t, r, g, l, k, e, m, i, o, n, p⟩ := args
  simp only at h
  rcases h with rfl | rfl
  · cases g <;> cases r <;> cases t <;> rfl
  · cases g <;> cases r <;> cases s <;> rfl

theorem load_some (rnd : ℚ → ℚ) (args : FpArgs) (h : args.sendfiles = none ∨ args.t1files = none) :
    (loadInput rnd 0 args).isSome := by
  unfold loadInput
  split
  · rename_i d1 d2 h1 h2
    rcases h with h | h
    · rw [h] at h1; simp at h1
    · rw [h] at h2; simp at h2
  · split <;> rfl
  · rfl

/-- Environment and arguments of the instances: two files with 4 and 5 events, one correlation of 2 bins of 4 ns, refined to 2 ns. -/
def fpDemoEnv : NumEnv :=
  { rnd := fl 53, rndA := fl 64, xcorr := fun a b => if 5 < b.getD 0 0 then [] else if a = [1, 0] then [0, 1] else [1, 0],
    signif := fun ys _ => .ok ys.length }

def fpDemoArgs (precomp fullscan : Bool) (start : ℚ) : FpMainArgs :=
  { sendfiles := none, t1files := none,
    reference := some [0, 0, 0, 0, 1, 0, 0, 0, 61, 0, 0, 0, 1, 0, 0, 9, 61, 0, 0, 0, 1, 0, 20, 9, 122, 0, 0, 0, 1, 0, 0, 18],
    target := some [0, 0, 0, 0, 1, 0, 0, 0, 0, 0, 0, 0, 1, 0, 20, 0, 61, 0, 0, 0, 1, 0, 0, 9, 61, 0, 0, 0, 1, 0, 16, 9, 122, 0, 0, 0,
      1, 0, 0, 18],
    legacy := true, skipDuration := 0, firstEpoch := none, skipEpochs := 0, initialRes := 4, bufferOrder := 1, numWraps := 1,
    separation := 125000, finalRes := 2, threshold := 2, output := 0, precompEnable := precomp, precompStart := start,
    precompStep := 1 / 2, precompStop := 1 / 2, precompOrdered := false, precompFullscan := fullscan }

def fpDemoA : List ℚ := [0, 1000000, 1000005, 2000000]
def fpDemoB : List ℚ := [0, 5, 1000000, 1000004, 2000000]

theorem fpDemo_input (p f : Bool) (x : ℚ) : Input fpDemoEnv (fpDemoArgs p f x) fpDemoA fpDemoB := by
  refine ⟨⟨0, fun fuel _ => ?_⟩, by simp [fpDemoA], by simp [fpDemoB]⟩
  have h1 : mainInput fpDemoEnv.rnd fpDemoEnv.rndA fuel (fpDemoArgs p f x).toFpArgs = mainInput fpDemoEnv.rnd fpDemoEnv.rndA 0 (fpDemoArgs false false 0).toFpArgs := by
    unfold mainInput
    have : loadInput fpDemoEnv.rnd fuel (fpDemoArgs p f x).toFpArgs = loadInput fpDemoEnv.rnd 0 (fpDemoArgs false false 0).toFpArgs :=
      load_fuel _ _ (Or.inl rfl) fuel
    rw [this]
  show mainInput fpDemoEnv.rnd fpDemoEnv.rndA fuel (fpDemoArgs p f x).toFpArgs = _
  rw [h1]
  decide +kernel

theorem search_of {env : NumEnv} {args : FpMainArgs} {a b : List ℚ} {r : TFResult}
    (h : timeFreq (searchParams env args a b) 20 b args.initialRes = some r) : Search env args a b r := timeFreq_returns h

theorem search_unique {env : NumEnv} {args : FpMainArgs} {a b : List ℚ} {r r' : TFResult} (h : Search env args a b r)
    (h' : Search env args a b r') : r = r' := by
  obtain ⟨N, hN⟩ := h
  obtain ⟨M, hM⟩ := h'
  have := hN (max N M) (le_max_left _ _)
  rw [hM (max N M) (le_max_right _ _)] at this
  simpa using this.symm

def fpDemoTrace : List TFEntry :=
  [{ bts := [0, 5, 1000000, 1000004, 2000000], dt1 := -4, df1 := 4722366482869645 / 1180591620717411303424 }]

def fpDemoLast : TFEntry :=
  { bts := [18446670287028405477 / 4611686018427387904, 10376252036453478081 / 1152921504606846976,
      17592186044416001883 / 17592186044416, 549758012902459553 / 549755813888, 2199018857523081247 / 1099511627776],
    dt1 := -2, df1 := 4722366482869645 / 2361183241434822606848 }

theorem fpDemo_search : Search fpDemoEnv (fpDemoArgs false false 0) fpDemoA (fpDemoB.map (fl 64))
    (.ok (-3377704224127499 / 562949953421312, 27021633793 / 4503599627370496, fpDemoTrace ++ [fpDemoLast])) :=
  search_of (by decide +kernel)

end Fp
