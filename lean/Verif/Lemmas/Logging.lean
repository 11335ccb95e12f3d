import Verif.Spec.Logging
import Mathlib.Data.List.Induction
import Mathlib.Data.List.Basic
import Mathlib.Data.List.TakeWhile
import Mathlib.Tactic.Common

/-! Helper lemmas for `Verif/Props/Logging.lean`. -/
namespace Fp
open Spec

theorem partition_spec (sep : List Char) (hsep : sep ≠ []) : ∀ s : List Char,
    ((pyPartition sep s).2.1 = true ∧ FirstAt sep s (pyPartition sep s).1 (pyPartition sep s).2.2) ∨
    (pyPartition sep s = (s, false, []) ∧ ¬ sep <:+: s) := by
  intro s
  induction s with
  | nil =>
    right
    refine ⟨by simp [pyPartition, hsep], ?_⟩
    rw [List.infix_nil]
    exact hsep
  | cons c cs ih =>
    by_cases hp : sep <+: (c :: cs)
    · left
      rw [pyPartition, if_pos hp]
      refine ⟨rfl, ?_, fun p' rest' _ => by simp⟩
      obtain ⟨t, ht⟩ := hp
      rw [← ht]
      simp
    · rw [pyPartition, if_neg hp]
      simp only
      rcases ih with ⟨h1, h2, h3⟩ | ⟨h1, h2⟩
      · left
        refine ⟨h1, ?_, ?_⟩
        · rw [List.cons_append, List.cons_append, ← h2]
        · intro p' rest' he
          cases p' with
          | nil =>
            exfalso
            exact hp ⟨rest', by rw [he]; simp⟩
          | cons x xs =>
            rw [List.cons_append, List.cons_append, List.cons.injEq] at he
            have := h3 xs rest' he.2
            simp only [List.length_cons]
            omega
      · right
        refine ⟨by rw [h1], ?_⟩
        rw [List.infix_cons_iff]
        rintro (h | h)
        · exact hp h
        · exact h2 h

theorem firstAt_unique {d l p r p' r' : List Char} (h : FirstAt d l p r) (h' : FirstAt d l p' r') : p = p' ∧ r = r' := by
  have e : p.length = p'.length := le_antisymm (h.2 _ _ h'.1) (h'.2 _ _ h.1)
  have h1 := h.1.symm.trans h'.1
  rw [List.append_assoc, List.append_assoc] at h1
  obtain ⟨h2, h3⟩ := List.append_inj h1 e
  exact ⟨h2, List.append_cancel_left h3⟩

/-- After white space only, the delimiter does not occur earlier. -/
theorem firstAt_blank (isspace : Char → Bool) (d p r : List Char) (hd : ∃ c ∈ d, isspace c = false) (hp : ∀ c ∈ p, isspace c) :
    FirstAt d (p ++ d ++ r) p r := by
  refine ⟨rfl, fun p' r' he => ?_⟩
  by_contra hlt
  rw [not_le] at hlt
  obtain ⟨x, hx, hxs⟩ := hd
  -- the first character of `d` that is not a space
  have hne : d.dropWhile isspace ≠ [] := by
    intro h0
    have := List.dropWhile_eq_nil_iff.mp h0 x hx
    rw [hxs] at this
    exact Bool.noConfusion this
  have hsplit := List.takeWhile_append_dropWhile (p := isspace) (l := d)
  have hlen : (d.takeWhile isspace).length < d.length := by
    have := congrArg List.length hsplit
    rw [List.length_append] at this
    have := List.length_pos_iff.mpr hne
    omega
  generalize hk : (d.takeWhile isspace).length = k at *
  have hget : ∃ c, d[k]? = some c ∧ isspace c = false := by
    obtain ⟨c, cs, hc⟩ := List.exists_cons_of_ne_nil hne
    refine ⟨c, ?_, ?_⟩
    · rw [← hsplit, List.getElem?_append_right (by omega), hk, hc]
      simp
    · have := List.head_dropWhile_not isspace hne
      simp only [hc, List.head_cons] at this
      exact this
  obtain ⟨c, hc, hcs⟩ := hget
  have h1 : (p' ++ d ++ r')[p'.length + k]? = some c := by
    rw [List.append_assoc, List.getElem?_append_right (by omega), Nat.add_sub_cancel_left, List.getElem?_append_left (by omega), hc]
  rw [← he] at h1
  by_cases hk2 : p'.length + k < p.length
  · rw [List.append_assoc, List.getElem?_append_left hk2] at h1
    have := hp c (List.mem_of_getElem? h1)
    rw [hcs] at this
    exact Bool.noConfusion this
  · rw [List.append_assoc, List.getElem?_append_right (by omega), List.getElem?_append_left (by omega)] at h1
    have hlt2 : p'.length + k - p.length < k := by omega
    have hmem : c ∈ d.takeWhile isspace := by
      have : (d.takeWhile isspace)[p'.length + k - p.length]? = some c := by
        rw [← h1]
        conv_rhs => rw [← hsplit]
        rw [List.getElem?_append_left (by omega)]
      exact List.mem_of_getElem? this
    have := List.mem_takeWhile_imp hmem
    rw [hcs] at this
    exact Bool.noConfusion this

theorem blanked_map (isspace : Char → Bool) (hs : isspace ' ' = true) (pre : List Char) :
    Blanked isspace pre (pre.map fun c => if isspace c then c else ' ') := by
  refine ⟨List.length_map _, ?_, ?_⟩
  · intro c hc
    obtain ⟨x, -, rfl⟩ := List.mem_map.mp hc
    split
    · assumption
    · exact hs
  · intro j c hj hc
    rw [List.getElem?_map, hj, Option.map_some, if_pos hc]

theorem strip_len (text : List Char) : text.length - (text.dropWhile (· == ' ')).length = indent text := by
  have := congrArg List.length (List.takeWhile_append_dropWhile (p := (· == ' ')) (l := text))
  rw [List.length_append] at this
  unfold indent
  omega

theorem runOps_append (a b : List LogOp) (L : Loggers) : runOps (a ++ b) L = runOps b (runOps a L) := List.foldl_append

theorem runOps_other (name : String) : ∀ (ops : List LogOp) (L : Loggers),
    (runOps ops L) name = (runOps (ops.filter fun op => opName op = name) L) name := by
  intro ops
  induction ops using List.reverseRecOn with
  | nil => intro L; rfl
  | append_singleton ops op ih =>
    intro L
    rw [List.filter_append, runOps_append, runOps_append]
    by_cases h : opName op = name
    · rw [List.filter_singleton, decide_eq_true h, cond_true]
      have := ih L
      generalize runOps ops L = A at *
      generalize runOps (ops.filter fun op => opName op = name) L = B at *
      cases op with
      | get n lv hu =>
        simp only [opName] at h
        subst h
        simp only [runOps, List.foldl_cons, List.foldl_nil, runOp, getLogger, Function.update_self, this]
      | file n p hu =>
        simp only [opName] at h
        subst h
        simp only [runOps, List.foldl_cons, List.foldl_nil, runOp, setLogfile, Function.update_self, this]
    · rw [List.filter_singleton, decide_eq_false h, cond_false]
      have := ih L
      generalize runOps ops L = A at *
      generalize runOps (ops.filter fun op => opName op = name) L = B at *
      rw [show runOps [] B = B from rfl, ← this]
      cases op with
      | get n lv hu =>
        simp only [opName] at h
        simp only [runOps, List.foldl_cons, List.foldl_nil, runOp, getLogger]
        rw [Function.update_of_ne (Ne.symm h)]
      | file n p hu =>
        simp only [opName] at h
        simp only [runOps, List.foldl_cons, List.foldl_nil, runOp, setLogfile]
        rw [Function.update_of_ne (Ne.symm h)]

/-- For calls about one logger only. -/
theorem runOps_same (name : String) : ∀ (ops : List LogOp), (∀ op ∈ ops, opName op = name) →
    ((runOps ops freshLoggers) name).handlers = (match ops with
      | .get _ _ h :: _ => [.stderr h]
      | _ => []) ++ filesOf ops ∧
    ((runOps ops freshLoggers) name).level = (match (levelsOf ops).getLast? with
      | some lv => label2level lv
      | none => 0) ∧
    (((runOps ops freshLoggers) name).propagate = match ops with
      | .get _ _ _ :: _ => false
      | _ => true) := by
  intro ops
  induction ops using List.reverseRecOn with
  | nil => intro _; exact ⟨rfl, rfl, rfl⟩
  | append_singleton ops op ih =>
    intro hall
    obtain ⟨i1, i2, i3⟩ := ih (fun o ho => hall o (List.mem_append_left _ ho))
    have hop : opName op = name := hall op (by simp)
    rw [runOps_append]
    generalize hA : runOps ops freshLoggers = A at *
    cases op with
    | file n p hu =>
      simp only [opName] at hop
      subst hop
      simp only [runOps, List.foldl_cons, List.foldl_nil, runOp, setLogfile, Function.update_self]
      refine ⟨?_, ?_, ?_⟩
      · rw [i1]
        unfold filesOf
        rw [List.filterMap_append]
        cases ops with
        | nil => rfl
        | cons o os => cases o <;> simp
      · rw [i2]
        unfold levelsOf
        rw [List.filterMap_append]
        simp
      · rw [i3]
        cases ops with
        | nil => rfl
        | cons o os => cases o <;> rfl
    | get n lv hu =>
      simp only [opName] at hop
      subst hop
      simp only [runOps, List.foldl_cons, List.foldl_nil, runOp, getLogger, Function.update_self]
      refine ⟨?_, ?_, ?_⟩
      · rw [i1]
        unfold filesOf
        rw [List.filterMap_append]
        cases ops with
        | nil => rfl
        | cons o os => cases o <;> simp [i1, filesOf]
      · unfold levelsOf
        rw [List.filterMap_append]
        simp
      · cases ops with
        | nil => simp [i1, filesOf]
        | cons o os => cases o <;> simp [i1, i3, filesOf]

theorem nested_append {d : Nat} {a b : List PLine} (ha : Nested d a) (hb : Nested d b) : Nested d (a ++ b) := by
  induction ha with
  | nil => exact hb
  | call d name body rest h1 _ _ ih =>
    have := Nested.call d name body (rest ++ b) h1 (ih hb)
    simpa using this

theorem nested_single {d : Nat} {a : List PLine} (name : String) (ha : Nested (d + 1) a) :
    Nested d (⟨true, 2 * d, name⟩ :: a ++ [⟨false, 2 * d, name⟩]) := Nested.call d name a [] ha (Nested.nil d)

mutual
theorem runCall_nested (d : Nat) : ∀ c : PCall, Nested d (runCall d c).1 ∧ (runCall d c).2.1 = d
  | .mk name calls raises => by
    have h := runCalls_nested (d + 1) calls
    rw [runCall]
    simp only
    have e : (2 * (d : Int)).toNat = 2 * d := by omega
    rw [e]
    push_cast at h
    exact ⟨nested_single name h.1, by rw [h.2]; omega⟩
theorem runCalls_nested (d : Nat) : ∀ cs : List (PCall × Bool), Nested d (runCalls d cs).1 ∧ (runCalls d cs).2.1 = d
  | [] => ⟨Nested.nil d, rfl⟩
  | (c, caught) :: rest => by
    have h1 := runCall_nested d c
    have h2 := runCalls_nested d rest
    rw [runCalls]
    simp only
    rw [h1.2]
    split
    · exact ⟨h1.1, rfl⟩
    · exact ⟨nested_append h1.1 h2.1, h2.2⟩
end

end Fp
