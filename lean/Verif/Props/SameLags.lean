import Verif.Props.Middle

/-!
# Which objects share their lags (C123)
-/

set_option linter.unusedSectionVars false

namespace Sacf

section lawfree
variable {F : Type} [Arith F]

theorem lagList_unique {lo res : F} {m : ℕ} {l l' : List F} (h : IsLagList lo res m l) (h' : IsLagList lo res m l') : l = l' := by
  rcases h with ⟨hs, rfl⟩ | ⟨i, hi, h1, h2, h3, rfl⟩ <;> rcases h' with ⟨hs', rfl⟩ | ⟨i', hi', h1', h2', h3', rfl⟩
  · rfl
  · exact absurd ⟨i', hi', h1', h2'⟩ hs
  · exact absurd ⟨i, hi, h1, h2⟩ hs'
  · rcases lt_trichotomy i i' with h | h | h
    · rw [h3' i h] at h1
      exact absurd h1 Bool.false_ne_true
    · subst h; rfl
    · rw [h3 i' h] at h1'
      exact absurd h1' Bool.false_ne_true

/-- **C123** (any arithmetic): two objects whose correlators have the same `max_lag` and the same `lag_resolution`.  Calls with the same lag parameters report the same lags,
whatever the values, the number of samples and of datasets, `alpha`, the selections and the weights. -/
theorem C123_same (a a' : AbsFn) (d d' : DS F) (hd : Constructed d) (hd' : Constructed d') (c c' : Corr F) (hc : Corr.new d = .ok c) (hc' : Corr.new d' = .ok c')
    (hmax : c.maxLag = c'.maxLag) (hres : c.lagRes = c'.lagRes) (g g' : LagArgs F) (h1 : g.minLag = g'.minLag) (h2 : g.maxLag = g'.maxLag) (h3 : g.lagRes = g'.lagRes)
    (sel sel' wt wt' : String) (r r' : AcResult F) (hr : autocorrelation a d g sel wt = .ok r) (hr' : autocorrelation a' d' g' sel' wt' = .ok r') :
    r.lags = r'.lags := by
  obtain ⟨m, hm, hl⟩ := result_lags hd.wf hr
  obtain ⟨m', hm', hl'⟩ := result_lags hd'.wf hr'
  obtain ⟨e1, e2, e3, _⟩ := C15_overrides a d hd g sel wt r hr c hc
  obtain ⟨e1', e2', e3', _⟩ := C15_overrides a' d' hd' g' sel' wt' r' hr' c' hc'
  have hmin : c.minLag = c'.minLag := by
    obtain ⟨_, _, rfl, _⟩ := corrNew_good hd.wf hc
    obtain ⟨_, _, rfl, _⟩ := corrNew_good hd'.wf hc'
    exact congrArg Arith.neg hmax
  rw [e1, e2, e3] at hm
  rw [e2, e3] at hl
  rw [e1', e2', e3', ← h1, ← h2, ← h3, ← hmax, ← hres, ← hmin] at hm'
  rw [e2', e3', ← h1, ← h3, ← hres, ← hmin] at hl'
  obtain rfl := hm.unique hm'
  exact lagList_unique hl hl'

end lawfree

section exact
variable {K : Type} [Field K] [LinearOrder K] [IsStrictOrderedRing K] [FloorRing K] {dm : K} {f32 ex : K → K}

/-- the first two lags of a default call -/
theorem first_lags {a : AbsFn} {d : DS (Exact dm f32 ex)} (hd : Constructed d) {M : ℕ} {t : ℕ → K} (ht : d.timeseries = samples M t) (hM : 2 ≤ M)
    (hinc : Increasing M t) (hspan : t (M - 1) - t 0 ≤ dm) {δ : K} (hδ : IsMinGap M t δ) {α : Option (Exact dm f32 ex)} {sel wt : String}
    {r : AcResult (Exact dm f32 ex)} (hr : autocorrelation a d { alpha := α } sel wt = .ok r) :
    r.lags[0]? = some (.fin (-(t (M - 1) - t 0))) ∧ r.lags[1]? = some (.fin (-(t (M - 1) - t 0) + δ)) := by
  obtain ⟨ks, hks, hp, hm⟩ := default_points hd ht hM hinc hspan hδ hr
  have hS : δ ≤ t (M - 1) - t 0 := hδ.2 0 (M - 1) (by omega) (by omega)
  have hδ0 := minGap_pos hinc hδ
  generalize t (M - 1) - t 0 = S at *
  have hge : ∀ k ∈ ks, k = -S ∨ -S + δ ≤ k := fun k hk => by
    rcases (hm k).1 hk with ⟨n, rfl, _⟩ | ⟨rfl, _⟩
    · rcases Nat.eq_zero_or_pos n with rfl | h
      · left; simp
      · right
        have : (1 : K) ≤ n := by exact_mod_cast h
        have := mul_le_mul_of_nonneg_right this hδ0.le
        linarith
    · right; linarith
  have h0 : -S ∈ ks := (hm _).2 (Or.inl ⟨0, by simp, by linarith⟩)
  have h1 : -S + δ ∈ ks := (hm _).2 (Or.inl ⟨1, by simp, by linarith⟩)
  match ks, hks, hp, hge, h0, h1 with
  | [], _, _, _, h0, _ => simp at h0
  | [x], _, _, _, h0, h1 =>
    simp only [List.mem_singleton] at h0 h1
    linarith
  | x :: y :: l, hks, hp, hge, h0, h1 =>
    have hx : ∀ z ∈ y :: l, x < z := (List.pairwise_cons.1 hp).1
    have hy : ∀ z ∈ l, y < z := (List.pairwise_cons.1 (List.pairwise_cons.1 hp).2).1
    have ex1 : x = -S := by
      rcases List.mem_cons.1 h0 with h | h
      · exact h.symm
      · have := hx _ h
        rcases hge x (by simp) with h' | h'
        · exact h'
        · linarith
    have ey : y = -S + δ := by
      have hxy := hx y (by simp)
      have hge' := hge y (by simp)
      rcases List.mem_cons.1 h1 with h | h
      · linarith
      · rcases List.mem_cons.1 h with h | h
        · exact h.symm
        · have := hy _ h
          rcases hge' with h' | h' <;> linarith
    rw [hks, ex1, ey]
    exact ⟨rfl, rfl⟩

/-- **C123** (exact arithmetic): two series of increasing times.  Their default calls report the same lags if and only if the spans are equal and the smallest gaps are equal. -/
theorem C123_iff (a a' : AbsFn) (d d' : DS (Exact dm f32 ex)) (hd : Constructed d) (hd' : Constructed d') (M M' : ℕ) (t t' : ℕ → K) (ht : d.timeseries = samples M t)
    (ht' : d'.timeseries = samples M' t') (hM : 2 ≤ M) (hM' : 2 ≤ M') (hinc : Increasing M t) (hinc' : Increasing M' t') (hspan : t (M - 1) - t 0 ≤ dm)
    (hspan' : t' (M' - 1) - t' 0 ≤ dm) (δ δ' : K) (hδ : IsMinGap M t δ) (hδ' : IsMinGap M' t' δ') (α α' : Option (Exact dm f32 ex)) (sel sel' wt wt' : String)
    (r r' : AcResult (Exact dm f32 ex)) (hr : autocorrelation a d { alpha := α } sel wt = .ok r) (hr' : autocorrelation a' d' { alpha := α' } sel' wt' = .ok r') :
    r.lags = r'.lags ↔ t (M - 1) - t 0 = t' (M' - 1) - t' 0 ∧ δ = δ' := by
  constructor
  · intro h
    obtain ⟨h0, h1⟩ := first_lags hd ht hM hinc hspan hδ hr
    obtain ⟨h0', h1'⟩ := first_lags hd' ht' hM' hinc' hspan' hδ' hr'
    rw [h, h0'] at h0
    rw [h, h1'] at h1
    simp only [Option.some.injEq, XF.fin.injEq] at h0 h1
    constructor <;> linarith
  · rintro ⟨hS, rfl⟩
    have hnew : ∀ {a : AbsFn} {d : DS (Exact dm f32 ex)} {g sel wt r}, autocorrelation a d g sel wt = .ok r → ∃ c, Corr.new d = .ok c := fun {_ _ _ _ _ _} hr => by
      unfold autocorrelation at hr
      obtain ⟨c, hc, _⟩ := Res.bind_eq_ok.1 hr
      exact ⟨c, hc⟩
    obtain ⟨c, hc⟩ := hnew hr
    obtain ⟨c', hc'⟩ := hnew hr'
    obtain ⟨m1, _, _, e, m3, m4⟩ := C15_defaults d hd M t ht hM hinc hspan c hc
    obtain ⟨m1', _, _, e', m3', m4'⟩ := C15_defaults d' hd' M' t' ht' hM' hinc' hspan' c' hc'
    obtain rfl := minGap_unique hδ m4
    obtain rfl := minGap_unique hδ' m4'
    exact C123_same a a' d d' hd hd' c c' hc hc' (by rw [m1, m1', hS]) (by rw [m3, m3']) { alpha := α } { alpha := α' } rfl rfl rfl sel sel' wt wt' r r' hr hr'

end exact

end Sacf
