import Verif.Props.Julian
import Verif.Cases.Base
import Verif.Spec.Rational

/-!
# Cases for Props/Julian.lean
-/

namespace Sacf

/-- the doubles nearest to the Julian days 2450000.1, 2450000.4, 2450001.1, 2450002.0 -/
def jdays (i : ℕ) : ℚ := b64 (2450000 + ([1/10, 4/10, 11/10, 2] : List ℚ).getD i 0)

/-- the same days counted from day 2450000 -/
def mjdays (i : ℕ) : ℚ := jdays i - 2450000

theorem jdays_dates : Dates64 4 jdays where
  double := by decide +kernel
  pos := by decide +kernel
  order := by
    have h : ∀ j < 4, ∀ i < 4, i ≤ j → jdays i ≤ jdays j := by decide +kernel
    exact fun i j hij hj => h j hj i (by omega) hij
  far := by decide +kernel
  finite := by decide +kernel

/-- C116_normalised, C116_defaults, C116_epoch: four Julian days, none of whose decimals is exact. -/
example : ∃ (d d' : DS B) (c : Corr B), Constructed d ∧ Corr.new d = .ok c ∧
    d.normalisedTimeseries = samples 4 (fun i => jdays i - jdays 0) ∧ c.maxLag = .fin (jdays 3 - jdays 0) ∧
    c.lagRes = .fin (jdays 1 - jdays 0) ∧ d'.timeseries = samples 4 mjdays ∧
    acOut .fabs d {} "natural" "fractional" = acOut .fabs d' {} "natural" "fractional" := by
  obtain ⟨d, hd, ht, hrow, _⟩ := C03_round_trip (F := B) (samples 4 jdays) [b [1, 2, 6, 3]] (by simp [samples]) (by simp) (by simp [Rect, samples, b])
  obtain ⟨d', hd', ht', hrow', _⟩ := C03_round_trip (F := B) (samples 4 mjdays) [b [1, 2, 6, 3]] (by simp [samples]) (by simp) (by simp [Rect, samples, b])
  have hnew : ((mkTable (samples 4 jdays : List B) [b [1, 2, 6, 3]]).bind fun d => (Corr.new d).bind fun _ => .ok ()) = .ok () := by decide +kernel
  rw [hd, Res.ok_bind, Res.bind_eq_ok] at hnew
  obtain ⟨c, hc, _⟩ := hnew
  obtain ⟨h1, _, δ, h2, ⟨⟨i, j, hij, hj, h3⟩, h4⟩⟩ := C116_defaults d (.table hd) ht jdays_dates (by norm_num) c hc
  refine ⟨d, d', c, .table hd, hc, C116_normalised d (.table hd) ht jdays_dates, h1, ?_, ht', ?_⟩
  · rw [h2]
    congr 1
    refine le_antisymm (h4 0 1 (by norm_num) (by norm_num)) ?_
    rw [← h3]
    have h : ∀ j < 4, ∀ i < 4, i < j → jdays 1 - jdays 0 ≤ jdays j - jdays i := by decide +kernel
    exact h j hj i (by omega) hij
  · exact C116_epoch .fabs (.table hd) (.table hd') ht ht' jdays_dates (by intro i _; unfold mjdays; ring) (by rw [hrow, hrow']) _ _ _

end Sacf
