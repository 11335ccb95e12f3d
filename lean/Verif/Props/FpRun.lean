import Verif.Lemmas.FpRun

/-! # A whole run of fpfind -/
namespace Fp
open Spec

/-- **C88**: the first precompensation for which the search succeeds decides: it is printed what the search has found, combined
with the precompensation. -/
theorem C88_first (env : NumEnv) (args : FpMainArgs) (a b : List ℚ) (hin : Input env args a b) (hfull : args.precompFullscan = false)
    (pre post : List ℚ) (df0 dt1 df1 : ℚ) (trace : List TFEntry) (hp : precs env args = pre ++ df0 :: post)
    (hpre : ∀ d ∈ pre, Search env args a (precompensated env d b) (.error .valueError))
    (h : Search env args a (precompensated env df0 b) (.ok (dt1, df1, trace))) :
    Returns (fun fuel => fpMain env fuel args) (.ok (some (fpLine (fpOutput env.rnd args.output
      (env.rnd (0 + env.rnd (env.rnd (1 + df0) * dt1))) (env.rnd (env.rnd (env.rnd (1 + df0) * env.rnd (1 + df1)) - 1)))))) := by
  obtain ⟨⟨N, hN⟩, ha, hb⟩ := hin
  obtain ⟨M, hM⟩ := common_fuel fun d hd => search_call ha (precomp_ne hb) (hpre d hd)
  obtain ⟨K, hK⟩ := search_call ha (precomp_ne hb) h
  refine ⟨max N (max M K), fun fuel hf => ?_⟩
  have f1 : N ≤ fuel := le_of_max_le_left hf
  have f2 : M ≤ fuel := (le_max_left _ _).trans (le_of_max_le_right hf)
  have f3 : K ≤ fuel := (le_max_right _ _).trans (le_of_max_le_right hf)
  show fpMain env fuel args = _
  rw [fpMain_input ha hb (hN fuel f1), hfull, hp, scanF_run (fun d hd => hM fuel f2 d hd) (hK fuel f3)]

/-- **C88**: if no precompensation succeeds, `ValueError` is raised. -/
theorem C88_no_peak (env : NumEnv) (args : FpMainArgs) (a b : List ℚ) (hin : Input env args a b)
    (h : ∀ d ∈ precs env args, Search env args a (precompensated env d b) (.error .valueError)) :
    Returns (fun fuel => fpMain env fuel args) (.error .valueError) := by
  obtain ⟨⟨N, hN⟩, ha, hb⟩ := hin
  obtain ⟨M, hM⟩ := common_fuel fun d hd => search_call ha (precomp_ne hb) (h d hd)
  refine ⟨max N M, fun fuel hf => ?_⟩
  show fpMain env fuel args = _
  rw [fpMain_input ha hb (hN fuel (le_of_max_le_left hf)), scanF_none (fun d hd => hM fuel (le_of_max_le_right hf) d hd)]

/-- **C88** fails for --precomp-fullscan: no run with this option prints a result. -/
theorem C88_fullscan_negation (env : NumEnv) (args : FpMainArgs) (hfull : args.precompFullscan = true) (fuel : Nat) (line : List Char) :
    fpMain env fuel args ≠ some (.ok (some line)) := by
  intro h
  unfold fpMain at h
  split at h
  · simp at h
  · simp at h
  · simp at h
  · simp only at h
    split at h
    · simp at h
    · split at h
      · simp at h
      · simp at h
      · rename_i dt df hs
        have := (scanF_ok hs).1
        rw [hfull] at this
        simp at this

/-- **C88**: a printed line shows the result of the first precompensation for which the search succeeds. -/
theorem C88_printed (env : NumEnv) (henv : env.rnd = fl 53) (args : FpMainArgs) (a b : List ℚ) (hin : Input env args a b) (line : List Char)
    (h : Returns (fun fuel => fpMain env fuel args) (.ok (some line))) :
    ∃ pre df0 post dt1 df1 trace dt df, precs env args = pre ++ df0 :: post ∧
      (∀ d ∈ pre, Search env args a (precompensated env d b) (.error .valueError)) ∧
      Search env args a (precompensated env df0 b) (.ok (dt1, df1, trace)) ∧ |df1| < 1 / 2 ^ 13 ∧
      dt = fl 53 (fl 53 (1 + df0) * dt1) ∧ df = fl 53 (fl 53 (fl 53 (1 + df0) * fl 53 (1 + df1)) - 1) ∧
      Printed (fpOutput (fl 53) args.output dt df) line := by
  obtain ⟨⟨N, hN⟩, ha, hb⟩ := hin
  obtain ⟨M, hM⟩ := h
  have h1 : fpMain env (max N M) args = some (.ok (some line)) := hM _ (le_max_right _ _)
  rw [fpMain_input ha hb (hN (max N M) (le_max_left _ _))] at h1
  split at h1
  · simp at h1
  · simp at h1
  · rename_i dt df hs
    obtain ⟨-, pre, df0, post, dt1, df1, hp, hpre, hok, hdt, hdf⟩ := scanF_ok hs
    obtain ⟨r, hr, hr'⟩ := call_search ha (precomp_ne hb) hok
    cases r with
    | error e => simp [Except.map] at hr'
    | ok r =>
      obtain ⟨dt1', df1', trace⟩ := r
      simp only [Except.map, Except.ok.injEq, Prod.mk.injEq] at hr'
      obtain ⟨rfl, rfl⟩ := hr'
      refine ⟨pre, df0, post, dt1, df1, trace, dt, df, hp, fun d hd => ?_, hr, (C33_bounded _ _ _ _ _ _ hr).1, ?_, ?_, ?_⟩
      · obtain ⟨r, hr, hr'⟩ := call_search ha (precomp_ne hb) (hpre d hd)
        cases r with
        | error e => simp only [Except.map, Except.error.injEq] at hr'; rw [hr']; exact hr
        | ok r => simp [Except.map] at hr'
      · rw [hdt, henv, zero_add, fl_idem 53 (by norm_num)]
      · rw [hdf, henv]
      · simp only [Option.some.injEq, Except.ok.injEq] at h1
        rw [← h1, henv]
        exact C86_output _ _ _ (by rw [hdf, henv]; exact fl_idem 53 (by norm_num) _)

/-- **C88** without precompensation: what is printed is exactly the result of one search on the times as read (as long doubles);
its frequency is below 2^-13. -/
theorem C88_plain (env : NumEnv) (henv : env.rnd = fl 53) (henvA : env.rndA = fl 64) (args : FpMainArgs) (hno : args.precompEnable = false)
    (a b : List ℚ) (hin : Input env args a b) (line : List Char)
    (h : Returns (fun fuel => fpMain env fuel args) (.ok (some line))) :
    ∃ dt df trace, Search env args a (b.map (fl 64)) (.ok (dt, df, trace)) ∧ |df| < 1 / 2 ^ 13 ∧
      Printed (fpOutput (fl 53) args.output dt df) line := by
  obtain ⟨pre, df0, post, dt1, df1, trace, dt, df, hp, hpre, hs, hb, hdt, hdf, hpr⟩ := C88_printed env henv args a b hin line h
  have hp' : precs env args = [0] := by simp [precs, hno]
  rw [hp'] at hp
  have h0 : pre = [] ∧ df0 = 0 := by
    cases pre with
    | nil => simp at hp; exact ⟨rfl, hp.1.symm⟩
    | cons p pre => simp at hp
  obtain ⟨rfl, rfl⟩ := h0
  have hpc : precompensated env 0 b = b.map (fl 64) := by
    unfold precompensated
    rw [henv, henvA, add_zero, fl_one53]
    simp only [div_one, fl_idem 64 (by norm_num)]
  rw [hpc] at hs
  obtain ⟨hd, f, hf, rfl⟩ := search_doubles henv hs
  obtain ⟨e1, e2⟩ := plain_result hd hf hb
  rw [e1] at hdt
  rw [e2] at hdf
  subst hdt hdf
  exact ⟨_, _, trace, hs, hb, hpr⟩

/-- A run ends if the input can be read and every search ends. -/
theorem fpMain_ends (env : NumEnv) (args : FpMainArgs)
    (hterm : ∀ a b, a ≠ [] → b ≠ [] → ∃ r, Search env args a b r)
    (hin : (∃ r, Returns (fun fuel => mainInput env.rnd env.rndA fuel args.toFpArgs) r) ∨ args.sendfiles = none ∨ args.t1files = none) :
    ∃ r, Returns (fun fuel => fpMain env fuel args) r := by
  have hin : ∃ r, Returns (fun fuel => mainInput env.rnd env.rndA fuel args.toFpArgs) r := by
    rcases hin with h | h
    · exact h
    · have : ∀ fuel, loadInput env.rnd fuel args.toFpArgs = loadInput env.rnd 0 args.toFpArgs := load_fuel env.rnd args.toFpArgs h
      have h0 : (loadInput env.rnd 0 args.toFpArgs).isSome := load_some env.rnd args.toFpArgs h
      obtain ⟨x, hx⟩ := Option.isSome_iff_exists.mp h0
      have h2 : (mainInput env.rnd env.rndA 0 args.toFpArgs).isSome := by
        unfold mainInput
        rw [hx]
        split <;> simp_all
      obtain ⟨r, hr⟩ := Option.isSome_iff_exists.mp h2
      refine ⟨r, 0, fun fuel _ => ?_⟩
      rw [← hr]
      unfold mainInput
      simp only [this fuel]
  obtain ⟨r, N, hN⟩ := hin
  have two : ∀ arrays, r = .ok (some arrays) → ∃ a b, arrays = [a, b] := by
    intro arrays hr
    have := hN N le_rfl
    rw [hr] at this
    simp only [mainInput] at this
    split at this
    · simp at this
    · simp at this
    · simp at this
    · rename_i alice bob skip hl
      simp only [Option.some.injEq] at this
      cases alice with
      | nil => simp [normalizeTimestampsR, List.mapM_cons, Except.map, bind, Except.bind, pure, Except.pure] at this
      | cons x alice =>
        cases bob with
        | nil => simp [normalizeTimestampsR, List.mapM_cons, Except.map, bind, Except.bind, pure, Except.pure] at this
        | cons y bob =>
          simp only [normalizeTimestampsR, List.mapM_cons, List.mapM_nil, Except.map, bind, Except.bind, pure, Except.pure, if_true] at this
          cases h1 : sliceTimestampsR env.rndA (x :: alice) (some (env.rndA (List.foldl max x [y] + env.rnd (skip * 10 ^ 9)))) none with
          | error e => rw [h1] at this; simp at this
          | ok u =>
            cases h2 : sliceTimestampsR env.rndA (y :: bob) (some (env.rndA (List.foldl max x [y] + env.rnd (skip * 10 ^ 9)))) none with
            | error e => rw [h1, h2] at this; simp at this
            | ok v =>
              rw [h1, h2] at this
              simp at this
              exact ⟨u, v, this.symm⟩
  rcases r with e | _ | arrays
  · refine ⟨.error e, N, fun fuel hf => ?_⟩
    simp only [fpMain, show mainInput env.rnd env.rndA fuel args.toFpArgs = _ from hN fuel hf]
  · refine ⟨.ok none, N, fun fuel hf => ?_⟩
    simp only [fpMain, show mainInput env.rnd env.rndA fuel args.toFpArgs = _ from hN fuel hf]
  · obtain ⟨a, b, rfl⟩ := two arrays rfl
    by_cases hne : a = [] ∨ b = []
    · refine ⟨.error .indexError, N, fun fuel hf => ?_⟩
      simp only [fpMain, show mainInput env.rnd env.rndA fuel args.toFpArgs = _ from hN fuel hf]
      simp [hne]
    · push Not at hne
      obtain ⟨r, M, hM⟩ := scanF_term (env := env) (tf := fun fuel => args.call env fuel a) (bob := b) args.precompFullscan
        (ps := precs env args) (by
          intro d _
          obtain ⟨r, hr⟩ := hterm a (precompensated env d b) hne.1 (precomp_ne hne.2)
          exact ⟨_, search_call hne.1 (precomp_ne hne.2) hr⟩)
      rcases r with e | ⟨dt, df⟩
      · refine ⟨.error e, max N M, fun fuel hf => ?_⟩
        show fpMain env fuel args = _
        rw [fpMain_input hne.1 hne.2 (hN fuel (le_of_max_le_left hf)), show fpfindScanF env.rnd env.rndA (args.call env fuel a) b args.precompFullscan (precs env args) = _ from
            hM fuel (le_of_max_le_right hf)]
      · refine ⟨.ok (some (fpLine (fpOutput env.rnd args.output dt df))), max N M, fun fuel hf => ?_⟩
        show fpMain env fuel args = _
        rw [fpMain_input hne.1 hne.2 (hN fuel (le_of_max_le_left hf)), show fpfindScanF env.rnd env.rndA (args.call env fuel a) b args.precompFullscan (precs env args) = _ from
            hM fuel (le_of_max_le_right hf)]

/-- **C88**: every run ends if reading the input does (timestamp files always, for epochs see C74 and C20) and the second
correlation is at least one and a half correlation lengths later. -/
theorem C88_terminates (env : NumEnv) (henv : RelErr env.rnd) (args : FpMainArgs) (hres : 0 < args.initialRes) (hwraps : 0 < args.numWraps)
    (hfin : 0 < args.finalRes) (hsep : 3 / 2 ≤ args.separation)
    (hin : (∃ r, Returns (fun fuel => mainInput env.rnd env.rndA fuel args.toFpArgs) r) ∨ args.sendfiles = none ∨ args.t1files = none) :
    ∃ r, Returns (fun fuel => fpMain env fuel args) r := by
  have hta : 0 < args.initialRes * 2 ^ args.bufferOrder * args.numWraps := by positivity
  refine fpMain_ends env args (fun a b _ _ => ?_) hin
  refine C34_terminates (searchParams env args a b) henv
    (show (0 : ℚ) < ((args.initialRes * 2 ^ args.bufferOrder * args.numWraps : Nat) : ℚ) by exact_mod_cast hta)
    (show (0 : ℚ) < (args.finalRes : ℚ) by exact_mod_cast hfin) ?_ b args.initialRes (by exact_mod_cast hres)
  show resRefineFactor * (1 + 1 / 2 ^ 50) * ((args.initialRes * 2 ^ args.bufferOrder * args.numWraps : Nat) : ℚ) ≤
    env.rnd (args.separation * env.rnd ((args.initialRes * 2 ^ args.bufferOrder * args.numWraps : Nat) : ℚ))
  generalize ht : ((args.initialRes * 2 ^ args.bufferOrder * args.numWraps : Nat) : ℚ) = t
  have htp : (0 : ℚ) < t := by rw [← ht]; exact_mod_cast hta
  have g1 := abs_le.mp (henv t)
  rw [abs_of_pos htp] at g1
  have g3 : 0 ≤ env.rnd t := by linarith [g1.1]
  have g2 := abs_le.mp (henv (args.separation * env.rnd t))
  rw [abs_of_nonneg (mul_nonneg (by linarith) g3)] at g2
  have g4 : 3 / 2 * env.rnd t ≤ args.separation * env.rnd t := mul_le_mul_of_nonneg_right hsep g3
  unfold resRefineFactor
  norm_num at g1 g2 ⊢
  linarith

/-- **C88**: the exit status is 1 exactly if neither both epoch directories nor both timestamp files are given. -/
theorem C88_status (env : NumEnv) (args : FpMainArgs) (fuel : Nat) :
    fpMain env fuel args = some (.ok none) ↔
      (args.sendfiles = none ∨ args.t1files = none) ∧ (args.target = none ∨ args.reference = none) := by
  have key : mainInput env.rnd env.rndA fuel args.toFpArgs = some (.ok none) ↔
      (args.sendfiles = none ∨ args.t1files = none) ∧ (args.target = none ∨ args.reference = none) := by
    constructor
    · intro h
      have h1 : loadInput env.rnd fuel args.toFpArgs = some (.ok none) := by
        unfold mainInput at h
        split at h
        · simp at h
        · simp at h
        · assumption
        · simp [Except.map] at h
          split at h <;> simp at h
      unfold loadInput at h1
      split at h1
      · simp only at h1
        repeat' split at h1
        all_goals simp at h1
      · split at h1 <;> simp at h1
      · rename_i h2 h3
        constructor
        · by_contra hc
          push Not at hc
          obtain ⟨d1, hd1⟩ := Option.ne_none_iff_exists'.mp hc.1
          obtain ⟨d2, hd2⟩ := Option.ne_none_iff_exists'.mp hc.2
          exact h2 _ _ hd1 hd2
        · by_contra hc
          push Not at hc
          obtain ⟨d1, hd1⟩ := Option.ne_none_iff_exists'.mp hc.1
          obtain ⟨d2, hd2⟩ := Option.ne_none_iff_exists'.mp hc.2
          exact h3 _ _ hd1 hd2
    · rintro ⟨h1, h2⟩
      have := (C74_choice env.rnd args.toFpArgs).2.2 h1 h2.symm fuel
      unfold mainInput
      rw [this]
  rw [← key]
  unfold fpMain
  constructor
  · intro h
    split at h
    · simp at h
    · simp at h
    · assumption
    · simp only at h
      split at h
      · simp at h
      · split at h <;> simp at h
  · intro h
    rw [h]


/-- **C88**, accuracy of the printed line: the target clock runs as `targetClock φ τ`; if in the last iteration of the search
the two delays found are those of the (already corrected) target clock up to `ε`, then the printed frequency and time correct the
target clock up to the given error: `ε`, rounding errors `R` and the rounding of the time to whole ns. -/
theorem C88_accuracy (env : NumEnv) (henv : env.rnd = fl 53) (henvA : env.rndA = fl 64) (args : FpMainArgs) (hno : args.precompEnable = false)
    (hout : args.output = 0) (a b : List ℚ) (hin : Input env args a b) (line : List Char)
    (h : Returns (fun fuel => fpMain env fuel args) (.ok (some line))) (φ τ ε B R sep : ℚ) (L : Nat) (hL : L ≤ 2 ^ 35)
    (hR : R = L * (B + L * (101 * 10 ^ 6)) / 2 ^ 49)
    (hsep : sep = fl 53 (args.separation * fl 53 ((args.initialRes * 2 ^ args.bufferOrder * args.numWraps : Nat) : ℚ))) (hs0 : 0 < sep)
    (hB0 : |targetClock φ τ 0| ≤ B) (hBs : |targetClock φ τ sep| ≤ B)
    (hd : ∀ dt df trace e, Search env args a (b.map (fl 64)) (.ok (dt, df, trace ++ [e])) → trace.length + 1 ≤ L ∧
      |e.dt1 - composedR (fl 53) (fl 64) trace (targetClock φ τ 0)| ≤ ε ∧
      |e.dt1 + e.df1 * sep - (composedR (fl 53) (fl 64) trace (targetClock φ τ sep) - sep)| ≤ ε) :
    ∃ x n, Printed ⟨.inl x, some n⟩ line ∧ |x| < 1 / 2 ^ 13 ∧ ∀ t, 0 ≤ t → |targetClock φ τ t| ≤ B →
      |corrected n x (targetClock φ τ t) - t| ≤ (ε + R + 2 * (ε + R) * (t / sep)) * (1 + 1 / 2 ^ 10) + 3 * R + (1 / 2 + 1 / 2 ^ 13) := by
  obtain ⟨dt, df, trace, hs, hb, hp⟩ := C88_plain env henv henvA args hno a b hin line h
  have hne := (C33_bounded _ _ _ _ _ _ hs).2.1
  obtain ⟨tr, e, rfl⟩ : ∃ tr e, trace = tr ++ [e] := ⟨_, _, (List.dropLast_append_getLast hne).symm⟩
  obtain ⟨hl, h1, h2⟩ := hd dt df tr e hs
  refine ⟨df, rne dt, ?_, hb, ?_⟩
  · rw [hout] at hp
    simpa [fpOutput] using hp
  intro t ht hBt
  have hse : (searchParams env args a (b.map (fl 64))).sep = sep := by rw [hsep]; simp only [searchParams, henv]
  have key := C63_rounded (searchParams env args a (b.map (fl 64))) (by show RelErr env.rnd; rw [henv]; exact C76_arithmetic.1)
    (by show RelErr env.rndA; rw [henvA]; exact C76_arithmetic.2) (by rw [hse]; exact hs0) _ _ dt df tr e φ τ ε B
    ((tr.length + 1) * (B + (tr.length + 1) * (101 * 10 ^ 6)) / 2 ^ 49) hs (hl.trans hL) rfl
    (by show |e.dt1 - composedR env.rnd env.rndA tr (targetClock φ τ 0)| ≤ ε; rw [henv, henvA]; exact h1)
    (by
      show |e.dt1 + e.df1 * (searchParams env args a (b.map (fl 64))).sep -
        (composedR env.rnd env.rndA tr (targetClock φ τ (searchParams env args a (b.map (fl 64))).sep) -
          (searchParams env args a (b.map (fl 64))).sep)| ≤ ε
      rw [hse, henv, henvA]; exact h2) hB0 (by rw [hse]; exact hBs) t ht hBt
  rw [hse] at key
  have hB : 0 ≤ B := (abs_nonneg _).trans hB0
  have hl' : (tr.length : ℚ) + 1 ≤ L := by exact_mod_cast hl
  have hR' : ((tr.length : ℚ) + 1) * (B + (tr.length + 1) * (101 * 10 ^ 6)) / 2 ^ 49 ≤ R := by
    rw [hR]
    apply div_le_div_of_nonneg_right _ (by positivity)
    have h0 : (0 : ℚ) ≤ (tr.length : ℚ) + 1 := by positivity
    generalize (tr.length : ℚ) + 1 = q at *
    have : (0 : ℚ) ≤ L := by positivity
    gcongr
  have hts : 0 ≤ t / sep := by positivity
  have mono : (ε + ((tr.length : ℚ) + 1) * (B + (tr.length + 1) * (101 * 10 ^ 6)) / 2 ^ 49 +
      2 * (ε + ((tr.length : ℚ) + 1) * (B + (tr.length + 1) * (101 * 10 ^ 6)) / 2 ^ 49) * (t / sep)) * (1 + 1 / 2 ^ 10) +
      3 * (((tr.length : ℚ) + 1) * (B + (tr.length + 1) * (101 * 10 ^ 6)) / 2 ^ 49) ≤
      (ε + R + 2 * (ε + R) * (t / sep)) * (1 + 1 / 2 ^ 10) + 3 * R := by
    generalize ((tr.length : ℚ) + 1) * (B + (tr.length + 1) * (101 * 10 ^ 6)) / 2 ^ 49 = r at *
    gcongr
  have hbl := abs_lt.mp hb
  have hpos : (0 : ℚ) < 1 + df := by linarith [hbl.1]
  have hrn : |corrected (rne dt) df (targetClock φ τ t) - corrected dt df (targetClock φ τ t)| ≤ 1 / 2 + 1 / 2 ^ 13 := by
    unfold corrected
    rw [← sub_div, abs_div, abs_of_pos hpos, div_le_iff₀ hpos]
    have h5 : |(rne dt : ℚ) - dt| ≤ 1 / 2 := rne_spec dt
    have h6 : targetClock φ τ t - (rne dt : ℚ) - (targetClock φ τ t - dt) = -((rne dt : ℚ) - dt) := by ring
    rw [h6, abs_neg]
    refine h5.trans ?_
    norm_num at hbl ⊢
    linarith [hbl.1]
  have := abs_sub_le (corrected (rne dt) df (targetClock φ τ t)) (corrected dt df (targetClock φ τ t)) t
  linarith

/-- Instance of `C88_plain` (with `fpDemo_input`): the line printed for the two files. -/
theorem C88_example_plain : Returns (fun fuel => fpMain fpDemoEnv fuel (fpDemoArgs false false 0)) (.ok (some "6.00000799999556e-06\t-6\n".toList)) := by
  have := C88_first fpDemoEnv (fpDemoArgs false false 0) fpDemoA fpDemoB (fpDemo_input _ _ _) rfl [] [] 0 _ _ _ rfl (by simp)
    (search_of (r := .ok (-3377704224127499 / 562949953421312, 27021633793 / 4503599627370496, fpDemoTrace ++ [fpDemoLast])) (by decide +kernel))
  rwa [show fpLine _ = "6.00000799999556e-06\t-6\n".toList by decide +kernel] at this

/-- Instance of `C88_first` and `C88_printed`: the precompensation 1/2 fails, the next one, 1, succeeds. -/
theorem C88_example : Input fpDemoEnv (fpDemoArgs true false (1 / 2)) fpDemoA fpDemoB ∧
    precs fpDemoEnv (fpDemoArgs true false (1 / 2)) = [1 / 2] ++ 1 :: [0] ∧
    Search fpDemoEnv (fpDemoArgs true false (1 / 2)) fpDemoA (precompensated fpDemoEnv (1 / 2) fpDemoB) (.error .valueError) ∧
    (∃ trace, Search fpDemoEnv (fpDemoArgs true false (1 / 2)) fpDemoA (precompensated fpDemoEnv 1 fpDemoB)
      (.ok (-3377704224127499 / 562949953421312, 27021633793 / 4503599627370496, trace))) ∧
    Returns (fun fuel => fpMain fpDemoEnv fuel (fpDemoArgs true false (1 / 2))) (.ok (some "1.000012000016\t-12\n".toList)) := by
  have h1 := fpDemo_input true false (1 / 2)
  have h2 : precs fpDemoEnv (fpDemoArgs true false (1 / 2)) = [1 / 2] ++ 1 :: [0] := by decide +kernel
  have h3 : Search fpDemoEnv (fpDemoArgs true false (1 / 2)) fpDemoA (precompensated fpDemoEnv (1 / 2) fpDemoB) (.error .valueError) :=
    search_of (by decide +kernel)
  obtain ⟨trace, h4⟩ : ∃ trace, Search fpDemoEnv (fpDemoArgs true false (1 / 2)) fpDemoA (precompensated fpDemoEnv 1 fpDemoB)
      (.ok (-3377704224127499 / 562949953421312, 27021633793 / 4503599627370496, trace)) := by
    have h : ((timeFreq (searchParams fpDemoEnv (fpDemoArgs true false (1 / 2)) fpDemoA (precompensated fpDemoEnv 1 fpDemoB)) 20
        (precompensated fpDemoEnv 1 fpDemoB) (fpDemoArgs true false (1 / 2)).initialRes).map fun r => r.map fun r => (r.1, r.2.1)) =
        some (.ok (-3377704224127499 / 562949953421312, 27021633793 / 4503599627370496)) := by decide +kernel
    rw [Option.map_eq_some_iff] at h
    obtain ⟨r, h5, h6⟩ := h
    cases r with
    | error e => simp [Except.map] at h6
    | ok r =>
      obtain ⟨x, y, z⟩ := r
      simp only [Except.map, Except.ok.injEq, Prod.mk.injEq] at h6
      rw [h6.1, h6.2] at h5
      exact ⟨z, search_of h5⟩
  refine ⟨h1, h2, h3, ⟨trace, h4⟩, ?_⟩
  have := C88_first fpDemoEnv (fpDemoArgs true false (1 / 2)) fpDemoA fpDemoB h1 rfl _ _ 1 _ _ _ h2 (by simpa using h3) h4
  rwa [show fpLine _ = "1.000012000016\t-12\n".toList by decide +kernel] at this

/-- Instance of `C88_no_peak`. -/
example : Input fpDemoEnv { fpDemoArgs true false (1 / 2) with precompStop := 0 } fpDemoA fpDemoB ∧
    precs fpDemoEnv { fpDemoArgs true false (1 / 2) with precompStop := 0 } = [1 / 2] ∧
    ∀ d ∈ precs fpDemoEnv { fpDemoArgs true false (1 / 2) with precompStop := 0 },
      Search fpDemoEnv { fpDemoArgs true false (1 / 2) with precompStop := 0 } fpDemoA (precompensated fpDemoEnv d fpDemoB)
        (.error .valueError) := by
  have h : precs fpDemoEnv { fpDemoArgs true false (1 / 2) with precompStop := 0 } = [1 / 2] := by decide +kernel
  refine ⟨fpDemo_input true false (1 / 2), h, ?_⟩
  rw [h]
  intro d hd
  rw [List.mem_singleton.mp hd]
  exact search_of (by decide +kernel)

/-- Instance of `C88_terminates`, and of `C88_fullscan_negation`: with -fullscan the same input as in `C88_example` gives nothing. -/
example : RelErr fpDemoEnv.rnd ∧ (fpDemoArgs true true (1 / 2)).precompFullscan = true ∧ (fpDemoArgs true true (1 / 2)).sendfiles = none ∧
    0 < (fpDemoArgs true true (1 / 2)).initialRes ∧ 0 < (fpDemoArgs true true (1 / 2)).numWraps ∧
    0 < (fpDemoArgs true true (1 / 2)).finalRes ∧ 3 / 2 ≤ (fpDemoArgs true true (1 / 2)).separation ∧
    fpMain fpDemoEnv 25 (fpDemoArgs true true (1 / 2)) = some (.error .valueError) :=
  ⟨C34_relErr.1, rfl, rfl, by decide, by decide, by decide, by decide +kernel, by decide +kernel⟩

/-- Instance of `C88_accuracy`: clocks with offset -6 ns and relative frequency 6·10^-6; the delays are found within 1/1000 ns. -/
example : fpDemoEnv.rnd = fl 53 ∧ fpDemoEnv.rndA = fl 64 ∧ (fpDemoArgs false false 0).output = 0 ∧
    (1000000 : ℚ) = fl 53 ((fpDemoArgs false false 0).separation * fl 53 (((fpDemoArgs false false 0).initialRes *
      2 ^ (fpDemoArgs false false 0).bufferOrder * (fpDemoArgs false false 0).numWraps : Nat) : ℚ)) ∧
    |targetClock (6 / 10 ^ 6) (-6) 0| ≤ 10 ^ 7 ∧ |targetClock (6 / 10 ^ 6) (-6) 1000000| ≤ 10 ^ 7 ∧
    ∀ dt df trace e, Search fpDemoEnv (fpDemoArgs false false 0) fpDemoA (fpDemoB.map (fl 64)) (.ok (dt, df, trace ++ [e])) →
      trace.length + 1 ≤ 2 ∧ |e.dt1 - composedR (fl 53) (fl 64) trace (targetClock (6 / 10 ^ 6) (-6) 0)| ≤ 1 / 1000 ∧
      |e.dt1 + e.df1 * 1000000 - (composedR (fl 53) (fl 64) trace (targetClock (6 / 10 ^ 6) (-6) 1000000) - 1000000)| ≤ 1 / 1000 := by
  refine ⟨rfl, rfl, rfl, by decide +kernel, by decide +kernel, by decide +kernel, ?_⟩
  intro dt df trace e h
  have := search_unique h fpDemo_search
  simp only [Except.ok.injEq, Prod.mk.injEq] at this
  obtain ⟨h1, h2⟩ := List.append_inj' this.2.2 rfl
  simp only [List.cons.injEq, and_true] at h2
  rw [h1, h2]
  decide +kernel

end Fp
