import Verif.Model.Alloc
import Verif.Props.Session
import Verif.Props.Driver

/-!
# Memory that is never released (C108)
-/

set_option linter.unusedSectionVars false

namespace Sacf

open Arith

variable {F : Type} [Arith F]

/-- `clearCorrelation()` -/
def SCall.isClear : SCall F → Bool
  | .clear => true
  | _ => false

/-- number of calls of `clearCorrelation()` -/
def clears (calls : List (SCall F)) : Nat := calls.countP SCall.isClear

/-! ### the standard computation raises nothing -/

theorem selectNat_not_exn (a : AbsFn) {nt : List F} (hne : nt ≠ []) {s : F} (hs : lt (lastD nt) s = false) :
    (∀ e, Corr.selectNat a nt s ≠ .exn e) ∧ ∀ j, Corr.selectNat a nt s = .ok j → j < nt.length := by
  obtain ⟨r, _, h1, _, h3, _⟩ := selectNat_fabs hne hs
  unfold Corr.selectNat
  rw [h1]
  simp only [Res.ok_bind]
  by_cases hr : r = 0
  · rw [if_neg (by simpa using hr)]
    exact ⟨by simp, fun j h => by simp at h; omega⟩
  · rw [if_pos hr, atGet_of_lt (show r - 1 < nt.length by omega), atGet_of_lt h3]
    simp only [Res.ok_bind]
    refine ⟨fun e h => ?_, fun j h => ?_⟩
    · rcases bind_exn h with h | ⟨_, _, h⟩
      · exact app_not_exn _ _ _ h
      rcases bind_exn h with h | ⟨_, _, h⟩
      · exact app_not_exn _ _ _ h
      simp at h
    · simp only [Res.bind_eq_ok, Res.ok.injEq] at h
      obtain ⟨_, _, _, _, rfl⟩ := h
      split <;> omega

theorem lagPlan_natural_not_exn (a : AbsFn) {nt : List F} (hne : nt ≠ []) (alpha k : F) (e : Exc) :
    lagPlan a "natural" "fractional" nt alpha k ≠ .exn e := by
  intro h
  unfold lagPlan at h
  rcases bind_exn h with h | ⟨p, hp, h⟩
  · unfold planSel at h
    rw [if_neg (by decide), if_pos rfl] at h
    rcases bind_exn h with h | ⟨_, _, h⟩
    · obtain ⟨s, hs, h⟩ := mapL_exn_mem h
      exact (selectNat_not_exn a hne (mem_shiftedNat hs)).1 e h
    · simp at h
  have hb : ∀ j ∈ p.1, j < nt.length := by
    unfold planSel at hp
    rw [if_neg (by decide), if_pos rfl] at hp
    simp only [Res.bind_eq_ok, Res.ok.injEq] at hp
    obtain ⟨s, hs, rfl⟩ := hp
    intro j hj
    obtain ⟨i, hi, rfl⟩ := List.mem_iff_getElem.1 hj
    have hl := Res.mapL_length hs
    have hi' : i < (shiftedNat nt k).length := by rw [← hl]; exact hi
    obtain ⟨y, hy, hf⟩ := Res.mapL_eq_ok_getElem hs i _ (List.getElem?_eq_getElem hi')
    rw [List.getElem?_eq_getElem hi] at hy
    cases hy
    exact (selectNat_not_exn a hne (mem_shiftedNat (List.getElem_mem hi'))).2 _ hf
  rcases bind_exn h with h | ⟨_, _, h⟩
  · unfold planDelta at h
    obtain ⟨q, hq, h⟩ := mapL_exn_mem h
    rw [atGet_of_lt (hb q.1 (List.of_mem_zip hq).1)] at h
    exact app_not_exn _ _ _ h
  · simp [planWt] at h

theorem foldL_not_exn {σ α : Type} {f : σ → α → Res σ} (hf : ∀ s x e, f s x ≠ .exn e) (l : List α) (s : σ) (e : Exc) :
    Res.foldL f s l ≠ .exn e := by
  induction l generalizing s with
  | nil => simp [Res.foldL]
  | cons x l ih =>
    intro h
    unfold Res.foldL at h
    rcases bind_exn h with h | ⟨_, _, h⟩
    · exact hf _ _ _ h
    · exact ih _ h

theorem rawSet_not_exn {α : Type} (v : List α) (i : Nat) (x : α) (e : Exc) : rawSet v i x ≠ .exn e := by
  unfold rawSet; split <;> simp

theorem standardStep_not_exn (a : AbsFn) {c : Corr F} (hw : c.ds.WF) (hn : c.norm.length = c.ds.N) (k : F) (i : Nat) (e : Exc) :
    Corr.standardStep a c k i ≠ .exn e := by
  rw [standardStep_eq_pyStep, pyStep_eq a _ _ hw hn]
  intro h
  rcases bind_exn h with h | ⟨ps, _, h⟩
  · exact lagPlan_natural_not_exn a hw.ne _ _ _ h
  unfold addVals at h
  rcases bind_exn h with h | ⟨_, _, h⟩
  · exact rawSet_not_exn _ _ _ _ h
  rcases bind_exn h with h | ⟨_, _, h⟩
  · exact foldL_not_exn (fun _ _ _ => rawSet_not_exn _ _ _ _) _ _ _ h
  · simp at h

/-! ### blocks -/

theorem standardStepMem_eq (a : AbsFn) {c : Corr F} (hw : c.ds.WF) (hn : c.norm.length = c.ds.N) (n : Nat) (k : F) (i : Nat) :
    standardStepMem a (c, n) k i = (Out.step c (Corr.standardStep a c k i)).withBlocks n := by
  unfold standardStepMem
  cases h : Corr.standardStep a c k i with
  | ok s => rfl
  | exn e => exact absurd h (standardStep_not_exn a hw hn k i e)
  | ub => rfl
  | diverge => rfl

theorem standardLoopMem_eq (a : AbsFn) (hi res : F) (fuel : Nat) {c : Corr F} (hw : c.ds.WF) (hn : c.norm.length = c.ds.N) (n : Nat) (k : F) (p : Bool)
    (i : Nat) : standardLoopMem a hi res fuel (c, n) k p i = (lagLoop (Corr.standardStep a) hi res fuel c k p i).withBlocks n := by
  induction fuel generalizing c k p i with
  | zero => rfl
  | succ m ih =>
    have kept : ∀ {c s : Corr F} {k i}, c.ds.WF → c.norm.length = c.ds.N → Corr.standardStep a c k i = .ok s → s.ds.WF ∧ s.norm.length = s.ds.N := by
      intro c s k i hw hn h
      have hs := standardStep_same h
      exact ⟨by rw [hs.ds]; exact hw, by rw [hs.ds, hs.norm]; exact hn⟩
    unfold standardLoopMem lagLoop
    split
    · simp only
      generalize (if eq k zero then true else p) = q
      split
      · rw [standardStepMem_eq a hw hn]
        cases h1 : Corr.standardStep a c zero i with
        | ok c1 =>
          obtain ⟨hw1, hn1⟩ := kept hw hn h1
          simp only [Out.step, Out.withBlocks, Out.bind]
          rw [standardStepMem_eq a hw1 hn1]
          cases h2 : Corr.standardStep a c1 k (i + 1) with
          | ok c2 =>
            obtain ⟨hw2, hn2⟩ := kept hw1 hn1 h2
            exact ih hw2 hn2 _ _ _
          | exn e => rfl
          | ub => rfl
          | diverge => rfl
        | exn e => rfl
        | ub => rfl
        | diverge => rfl
      · rw [standardStepMem_eq a hw hn]
        cases h1 : Corr.standardStep a c k i with
        | ok c1 =>
          obtain ⟨hw1, hn1⟩ := kept hw hn h1
          exact ih hw1 hn1 _ _ _
        | exn e => rfl
        | ub => rfl
        | diverge => rfl
    · rfl

theorem calculateMem_eq (a : AbsFn) {c : Corr F} (hw : c.ds.WF) (hn : c.norm.length = c.ds.N) (n : Nat) :
    calculateMem a (c, n) = (calculateOn a c).withBlocks n := by
  unfold calculateMem calculateOn
  rw [standardLoopMem_eq a _ _ _ hw hn]
  cases lagLoop (Corr.standardStep a) c.maxLag c.lagRes (c.tsBuf.length + 1) c c.minLag false 0 <;> rfl

theorem SCall.run_fixed {a : AbsFn} {c : Corr F} (x : SCall F) : Out.All (fun s => s.ds = c.ds ∧ s.norm = c.norm) (x.run a c) := by
  by_cases hcl : x = .clear
  · subst hcl; exact ⟨rfl, rfl⟩
  · have := scall_good (a := a) (c := c) hcl
    cases h : x.run a c <;> rw [h] at this <;> simp_all [Out.All]

theorem SCall.runMem_eq (a : AbsFn) {c : Corr F} (hw : c.ds.WF) (hn : c.norm.length = c.ds.N) (n : Nat) (x : SCall F) :
    x.runMem a (c, n) = (x.run a c).withBlocks (n + if x.isClear then 1 else 0) := by
  cases x with
  | calculate => exact calculateMem_eq a hw hn n
  | clear => rfl
  | _ => rfl

theorem runSessionMem_eq (a : AbsFn) (calls : List (SCall F)) {c : Corr F} (hw : c.ds.WF) (hn : c.norm.length = c.ds.N) (n : Nat) :
    runSessionMem a (c, n) calls = (runSession a c calls).bind fun p => .ok ((p.1, n + clears calls), p.2) := by
  induction calls generalizing c n with
  | nil => rfl
  | cons x xs ih =>
    unfold runSessionMem runSession
    rw [SCall.runMem_eq a hw hn]
    have hfix := SCall.run_fixed (a := a) (c := c) x
    have hcount : n + clears (x :: xs) = n + (if x.isClear then 1 else 0) + clears xs := by
      unfold clears
      rw [List.countP_cons]
      omega
    rw [hcount]
    cases h : x.run a c with
    | ok u s =>
      rw [h] at hfix
      simp only [Out.withBlocks]
      rw [ih (by rw [hfix.1]; exact hw) (by rw [hfix.1, hfix.2]; exact hn)]
      cases runSession a s xs <;> rfl
    | exn e s =>
      rw [h] at hfix
      simp only [Out.withBlocks]
      rw [ih (by rw [hfix.1]; exact hw) (by rw [hfix.1, hfix.2]; exact hn)]
      cases runSession a s xs <;> rfl
    | ub => rfl
    | diverge => rfl

/-- **C108**: after any history of calls on a new `Correlator`, with any arguments, exceptions caught, the blocks that were never released are as many as there were
calls of `clearCorrelation()`. -/
theorem C108_history (a : AbsFn) (d : DS F) (hd : Constructed d) (c0 c : Corr F) (h0 : Corr.new d = .ok c0) (calls : List (SCall F))
    (log : List (Option Exc)) (h : runSession a c0 calls = .ok (c, log)) :
    runSessionMem a (c0, 0) calls = .ok ((c, clears calls), log) := by
  obtain ⟨n, _, rfl, hg⟩ := corrNew_good hd.wf h0
  rw [runSessionMem_eq a calls hg.wf hg.norm_len, h]
  simp

/-- **C108**: the accounting changes no outcome: undefined behaviour and exceptions are where they were. -/
theorem C108_same_outcome (a : AbsFn) (d : DS F) (hd : Constructed d) (c0 : Corr F) (h0 : Corr.new d = .ok c0) (calls : List (SCall F)) (n : Nat) :
    (runSessionMem a (c0, n) calls).bind (fun p => .ok (p.1.1, p.2)) = runSession a c0 calls := by
  obtain ⟨m, _, rfl, hg⟩ := corrNew_good hd.wf h0
  rw [runSessionMem_eq a calls hg.wf hg.norm_len]
  cases runSession a (Corr.fresh d m) calls <;> rfl

theorem setArg_fixed {set : Corr F → F → Corr F} (hset : ∀ c v, (set c v).ds = c.ds ∧ (set c v).norm = c.norm) {x : PyVal F} {c s : Corr F}
    (h : setArg set x c = .ok s) : s.ds = c.ds ∧ s.norm = c.norm := by
  unfold setArg at h
  split at h
  · cases h; exact ⟨rfl, rfl⟩
  · split at h
    · cases h; exact hset _ _
    · cases h

/-- **C108**: `autocorrelation()` – any data, any arguments, whether it returns or raises – leaves no block behind. -/
theorem C108_autocorrelation (a : AbsFn) (d : DS F) (hd : Constructed d) (minLag maxLag lagRes alpha : PyVal F) (sel wt : PyName) (rc : PyVal F) (n : Nat) :
    autocorrelationMem a d minLag maxLag lagRes alpha sel wt rc n = match anyAutocorrelation a d minLag maxLag lagRes alpha sel wt rc with
      | .ok r => .ok r n
      | .exn e => .exn e n
      | .ub => .ub
      | .diverge => .diverge := by
  unfold autocorrelationMem anyAutocorrelation
  cases h0 : Corr.new d with
  | ok c0 =>
    obtain ⟨m, _, rfl, hg⟩ := corrNew_good hd.wf h0
    simp only [Res.ok_bind]
    cases h1 : pySetUpCorrelation (Corr.fresh d m) minLag maxLag lagRes alpha with
    | ok c =>
      have hfix : c.ds = (Corr.fresh d m).ds ∧ c.norm = (Corr.fresh d m).norm := by
        unfold pySetUpCorrelation at h1
        simp only [Res.bind_eq_ok] at h1
        obtain ⟨c1, k1, c2, k2, c3, k3, k4⟩ := h1
        have e1 := setArg_fixed (set := Corr.setMaxLag) (fun _ _ => ⟨rfl, rfl⟩) k1
        have e2 := setArg_fixed (set := Corr.setMinLag) (fun _ _ => ⟨rfl, rfl⟩) k2
        have e3 := setArg_fixed (set := Corr.setLagResolution) (fun _ _ => ⟨rfl, rfl⟩) k3
        have e4 := setArg_fixed (set := Corr.setAlpha) (fun _ _ => ⟨rfl, rfl⟩) k4
        exact ⟨e4.1.trans (e3.1.trans (e2.1.trans e1.1)), e4.2.trans (e3.2.trans (e2.2.trans e1.2))⟩
      simp only [Res.ok_bind]
      rw [calculateMem_eq a (by rw [hfix.1]; exact hg.wf) (by rw [hfix.1, hfix.2]; exact hg.norm_len)]
      generalize hx : (if (sel.is "natural" && wt.is "fractional") = true then calculateOn a c else findOn a sel wt c) = x
      have hx' : (if (sel.is "natural" && wt.is "fractional") = true then (calculateOn a c).withBlocks n else (findOn a sel wt c).withBlocks n)
          = x.withBlocks n := by rw [← hx]; split <;> rfl
      rw [hx']
      cases x with
      | ok u s =>
        simp only [Out.withBlocks, Out.res, Res.ok_bind]
        cases s.correlations with
        | ok rows =>
          simp only [Res.ok_bind]
          cases corrOut rows <;> rfl
        | exn e => rfl
        | ub => rfl
        | diverge => rfl
      | exn e s => rfl
      | ub => rfl
      | diverge => rfl
    | exn e => rfl
    | ub => rfl
    | diverge => rfl
  | exn e => rfl
  | ub => rfl
  | diverge => rfl

end Sacf
