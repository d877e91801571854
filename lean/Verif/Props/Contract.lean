import Verif.Props.Session
import Verif.Props.Driver

/-!
# Arguments of the low-level calls (C67, C68, C69)
-/

set_option linter.unusedSectionVars false
set_option linter.unusedSimpArgs false

namespace Sacf

open Arith

variable {F : Type} [Arith F]

/-! ## C67 -/

theorem foldL_ub {σ α : Type} {f : σ → α → Res σ} {l : List α} (h : ∀ s x, f s x = .ub ∨ ∃ s', f s x = .ok s')
    {x : α} (hx : x ∈ l) (hub : ∀ s, f s x = .ub) (s : σ) : Res.foldL f s l = .ub := by
  induction l generalizing s with
  | nil => simp at hx
  | cons y l ih =>
    rw [Res.foldL_cons]
    rcases List.mem_cons.1 hx with rfl | hx
    · rw [hub]; rfl
    · rcases h s y with h1 | ⟨s', h1⟩
      · rw [h1]; rfl
      · rw [h1]; exact ih hx s'

theorem clean_eq {c : Corr F} (hg : c.Good) {i : Nat} (hi : i ≤ c.numLagSteps) :
    c.cleanCorrelationData i = .ok { c with
      tsBuf := c.tsBuf.take i
      corrBuf := blocks c.ds.N fun j => (rowOf c.corrBuf c.numLagSteps j).take i
      numLagSteps := i } := by
  have hrow : ∀ j < c.ds.N, (rowOf c.corrBuf c.numLagSteps j).length = c.numLagSteps :=
    fun j hj => rowOf_length (by rw [hg.corr_len]) hj
  unfold Corr.cleanCorrelationData
  have : Res.foldL
      (fun out j =>
        (slice c.corrBuf (j * c.numLagSteps) (j * c.numLagSteps + i)).bind fun row =>
        writeAt out (j * i) row)
      (List.replicate (c.ds.N * i) zero) (List.range c.ds.N)
    = Res.foldL (fun out j => writeAt out (j * i) ((rowOf c.corrBuf c.numLagSteps j).take i))
      (List.replicate (c.ds.N * i) zero) (List.range c.ds.N) := by
    apply Res.foldL_congr
    intro s j hj
    have hj := List.mem_range.1 hj
    have hb : (j + 1) * c.numLagSteps ≤ c.ds.N * c.numLagSteps := Nat.mul_le_mul_right _ hj
    rw [Nat.succ_mul] at hb
    rw [slice_of_le (by rw [hg.corr_len]; omega)]
    simp only [Res.ok_bind]
    congr 1
    rw [Nat.add_sub_cancel_left]
    simp only [rowOf, List.take_take]
    congr 1; omega
  rw [this, foldL_writeAt_blocks]
  · simp only [Res.ok_bind, Corr.resizeF, blocks]
    congr 2
    · simp
    · simp [hg.ts_len]; omega
  · intro j hj; simp [hrow j hj]; omega
  · simp

theorem clean_beyond {c : Corr F} (hg : c.Good) {i : Nat} (hi : c.numLagSteps < i) :
    c.cleanCorrelationData i = .ub := by
  unfold Corr.cleanCorrelationData
  have hN := hg.wf.npos
  rw [foldL_ub (x := c.ds.N - 1)]
  · rfl
  · intro s j
    unfold slice writeAt
    split
    · simp only [Res.ok_bind]
      split
      · right; exact ⟨_, rfl⟩
      · left; rfl
    · left; rfl
  · exact List.mem_range.2 (by omega)
  · intro s
    obtain ⟨m, hm⟩ : ∃ m, c.ds.N = m + 1 := ⟨c.ds.N - 1, by omega⟩
    unfold slice
    rw [if_neg]
    · rfl
    · rw [hg.corr_len, hm, Nat.succ_mul, Nat.add_sub_cancel]; omega

/-- **C67**: `cleanCorrelationData(i)` keeps the first `i` lags and columns if there are that many; reads outside its buffer if there are
not; raises `ValueError` (`std::length_error`) for a negative and `TypeError` for anything that is not an `int` of the platform. -/
theorem C67_clean (a : AbsFn) (d : DS F) (hd : Constructed d) (c : Corr F) (h : Reached a d c) (rows : List (List F))
    (hrows : c.correlations = .ok rows) :
    (∀ i : ℕ, i ≤ c.lagTimeseries.length → i ≤ 2147483647 → ∃ c', cleanOn (some i) c = .ok c' ∧
      c'.lagTimeseries = c.lagTimeseries.take i ∧ c'.correlations = .ok (rows.map (List.take i))) ∧
    (∀ i : ℕ, c.lagTimeseries.length < i → i ≤ 2147483647 → cleanOn (some i) c = .ub) ∧
    (∀ i : ℤ, i < 0 → -2147483648 ≤ i → cleanOn (some i) c = .exn .lengthError) ∧
    (∀ i : ℤ, i < -2147483648 ∨ 2147483647 < i → cleanOn (some i) c = .exn .typeError) ∧
    cleanOn none c = .exn .typeError := by
  obtain ⟨hg, hds, _⟩ := h.good hd
  have hts : c.lagTimeseries.length = c.numLagSteps := hg.ts_len
  replace hrows : (List.range d.N).map (fun j => rowOf c.corrBuf c.numLagSteps j) = rows := by
    rw [h.rows hd] at hrows
    simpa only [Res.ok.injEq] using hrows
  have hload : ∀ i : ℕ, i ≤ 2147483647 → cleanOn (some (i : ℤ)) c = c.cleanCorrelationData i := by
    intro i hi
    unfold cleanOn loadInt
    simp only
    rw [if_pos (by omega), Res.ok_bind, if_neg (by omega), Int.toNat_natCast]
  refine ⟨?_, ?_, ?_, ?_, rfl⟩
  · intro i hi hi'
    rw [hts] at hi
    rw [hload i hi', clean_eq hg hi]
    refine ⟨_, rfl, rfl, ?_⟩
    have hrow : ∀ j < c.ds.N, ((rowOf c.corrBuf c.numLagSteps j).take i).length = i := fun j hj => by
      rw [List.length_take, rowOf_length (by rw [hg.corr_len]) hj]; omega
    have := unflatten_ok (v := blocks c.ds.N fun j => (rowOf c.corrBuf c.numLagSteps j).take i) (N := c.ds.N) (M := i)
      (by rw [blocks_length hrow])
    unfold unflatten vecIdx at this
    unfold Corr.correlations
    simp only
    rw [this, ← hrows, List.map_map, ← hds]
    congr 1
    apply List.map_congr_left
    intro j hj
    rw [rowOf_blocks hrow (List.mem_range.1 hj)]
    rfl
  · intro i hi hi'
    rw [hts] at hi
    rw [hload i hi', clean_beyond hg hi]
  · intro i hi hi'
    unfold cleanOn loadInt
    simp only
    rw [if_pos (by omega), Res.ok_bind, if_pos hi]
  · intro i hi
    unfold cleanOn loadInt
    simp only
    rw [if_neg (by omega)]
    rfl

theorem addData_eq {c : Corr F} (hg : c.Good) (it : CorrIt F) {i : Nat} (hi : i < c.numLagSteps)
    (hn : c.ds.N ≤ it.correlation.length) :
    c.addCorrelationData it i = .ok { c with
      tsBuf := c.tsBuf.set i it.k
      corrBuf := blocks c.ds.N fun j => (rowOf c.corrBuf c.numLagSteps j).set i (it.correlation.getD j zero) } := by
  have hrow : ∀ j < c.ds.N, (rowOf c.corrBuf c.numLagSteps j).length = c.numLagSteps :=
    fun j hj => rowOf_length (by rw [hg.corr_len]) hj
  unfold Corr.addCorrelationData
  rw [rawSet_of_lt (by rw [hg.ts_len]; exact hi)]
  simp only [Res.ok_bind]
  have : Res.foldL (fun buf j => (rawGet it.correlation j).bind fun x => rawSet buf (i + c.numLagSteps * j) x) c.corrBuf
      (List.range c.ds.N) = Res.foldL (fun buf j => rawSet buf (i + c.numLagSteps * j) (it.correlation.getD j zero)) c.corrBuf
      (List.range c.ds.N) := by
    apply Res.foldL_congr
    intro s j hj
    have hj := List.mem_range.1 hj
    have : rawGet it.correlation j = .ok (it.correlation.getD j zero) := by
      unfold rawGet
      rw [List.getElem?_eq_getElem (by omega)]
      simp [List.getD, show j < it.correlation.length by omega]
    rw [this]; rfl
  rw [this]
  have hb := foldL_rawSet_blocks (N := c.ds.N) (n := c.numLagSteps) hrow hi fun j => it.correlation.getD j zero
  rw [blocks_rowOf hg.corr_len] at hb
  rw [hb]
  rfl

theorem addData_ub {c : Corr F} (hg : c.Good) (it : CorrIt F) {i : Nat}
    (h : c.numLagSteps ≤ i ∨ it.correlation.length < c.ds.N) : c.addCorrelationData it i = .ub := by
  unfold Corr.addCorrelationData
  by_cases hi : i < c.tsBuf.length
  · rw [rawSet_of_lt hi]
    simp only [Res.ok_bind]
    rw [hg.ts_len] at hi
    have hl : it.correlation.length < c.ds.N := by omega
    rw [foldL_ub (x := it.correlation.length)]
    · rfl
    · intro s j
      unfold rawGet rawSet
      split
      · simp only [Res.ok_bind]
        split
        · right; exact ⟨_, rfl⟩
        · left; rfl
      · left; rfl
    · exact List.mem_range.2 hl
    · intro s
      rw [rawGet_of_ge (le_refl _)]; rfl
  · rw [rawSet_of_ge (by omega)]; rfl

/-- **C67**: `addCorrelationData(it, i)` with `0 <= i` below the number of lags and an iterator with an entry for every dataset puts the
iterator's lag and correlations into column `i` and changes nothing else; with any other `int`, or a shorter iterator, it writes or
reads outside a buffer; it never raises except `TypeError` for something that is not an `int`. -/
theorem C67_add (a : AbsFn) (d : DS F) (hd : Constructed d) (c : Corr F) (h : Reached a d c) (it : CorrIt F)
    (rows : List (List F)) (hrows : c.correlations = .ok rows) :
    (∀ i : ℕ, i < c.lagTimeseries.length → i ≤ 2147483647 → d.N ≤ it.correlation.length → ∃ c', addOn it (some i) c = .ok c' ∧
      c'.lagTimeseries = c.lagTimeseries.set i it.k ∧
      ∃ rows', c'.correlations = .ok rows' ∧ rows'.length = rows.length ∧
        ∀ (j : ℕ) (row : List F) (v : F), rows[j]? = some row → it.correlation[j]? = some v → rows'[j]? = some (row.set i v)) ∧
    (∀ i : ℤ, -2147483648 ≤ i → i ≤ 2147483647 →
      i < 0 ∨ (c.lagTimeseries.length : ℤ) ≤ i ∨ it.correlation.length < d.N → addOn it (some i) c = .ub) ∧
    (∀ i : ℤ, i < -2147483648 ∨ 2147483647 < i → addOn it (some i) c = .exn .typeError) ∧
    addOn it none c = .exn .typeError := by
  obtain ⟨hg, hds, _⟩ := h.good hd
  have hts : c.lagTimeseries.length = c.numLagSteps := hg.ts_len
  replace hrows : (List.range d.N).map (fun j => rowOf c.corrBuf c.numLagSteps j) = rows := by
    rw [h.rows hd] at hrows
    simpa only [Res.ok.injEq] using hrows
  refine ⟨?_, ?_, ?_, rfl⟩
  · intro i hi hi' hn
    rw [hts] at hi
    have : addOn it (some (i : ℤ)) c = c.addCorrelationData it i := by
      unfold addOn loadInt
      simp only
      rw [if_pos (by omega), Res.ok_bind, if_neg (by omega), Int.toNat_natCast]
    rw [this, addData_eq hg it hi (by rw [hds]; exact hn)]
    have hrow : ∀ j < c.ds.N, ((rowOf c.corrBuf c.numLagSteps j).set i (it.correlation.getD j zero)).length
        = c.numLagSteps := fun j hj => by
      rw [List.length_set, rowOf_length (by rw [hg.corr_len]) hj]
    have hu := unflatten_ok (v := blocks c.ds.N fun j => (rowOf c.corrBuf c.numLagSteps j).set i (it.correlation.getD j zero))
      (N := c.ds.N) (M := c.numLagSteps) (by rw [blocks_length hrow])
    unfold unflatten vecIdx at hu
    refine ⟨_, rfl, rfl, _, hu, by rw [← hrows, hds]; simp, ?_⟩
    intro j row v hj hv
    rw [← hrows, List.getElem?_map, Option.map_eq_some_iff] at hj
    obtain ⟨j', hj', rfl⟩ := hj
    obtain ⟨hlt, he⟩ := List.getElem?_eq_some_iff.1 hj'
    simp only [List.getElem_range] at he
    subst he
    simp only [List.length_range] at hlt
    rw [List.getElem?_map, List.getElem?_range (by rw [hds]; exact hlt), Option.map_some,
      rowOf_blocks hrow (by rw [hds]; exact hlt)]
    rw [List.getD_eq_getElem?_getD, hv]
    rfl
  · intro i h1 h2 h3
    unfold addOn loadInt
    simp only
    rw [if_pos (by omega), Res.ok_bind]
    split
    · rfl
    · apply addData_ub hg
      rw [hds]
      omega
  · intro i hi
    unfold addOn loadInt
    simp only
    rw [if_neg (by omega)]
    rfl

/-- two datasets, column 1 of nine replaced, then cut down to three columns -/
example : (((mkTable (q [0, 1, 3]) [q [1, 2, 6], q [0, 0, 1]]).bind Corr.new).bind fun c =>
    (runSession .fabs c [.calculate, .add { CorrIt.new (.fin 7) 2 with correlation := q [8, 9] } (some 1), .clean (some 3)]).bind fun p =>
      .ok (p.2, p.1.lagTimeseries, p.1.correlations.bind fun r => .ok (r.map (·.drop 1))))
    = .ok ([none, none, none], q [-3, 7, -1], .ok [q [8, 17/28], q [9, 7/12]]) := by decide +kernel
example : (((mkFlat (q [0, 1, 3]) (q [1, 2, 6])).bind Corr.new).bind fun c =>
    .ok (cleanOn (some 10) c |>.bind fun _ => .ok 0, cleanOn (some (-1)) c |>.bind fun _ => .ok 0,
      addOn (CorrIt.new (.fin 0) 1) (some (-1)) c |>.bind fun _ => .ok 0, addOn (CorrIt.new (.fin 0) 0) (some 0) c |>.bind fun _ => .ok 0,
      addOn (CorrIt.new (.fin 0) 1) (some (2 ^ 31)) c |>.bind fun _ => .ok 0))
    = .ok ((.ub : Res Nat), (.exn .lengthError : Res Nat), (.ub : Res Nat), (.ub : Res Nat), (.exn .typeError : Res Nat)) := by
  decide +kernel

/-! ## C68 -/

theorem any_strings (a : AbsFn) (sel wt : String) (c : Corr F) :
    (if (PyName.str sel).is "natural" && (PyName.str wt).is "fractional" then calculateOn a c
      else findOn a (.str sel) (.str wt) c).res
      = if sel = "natural" ∧ wt = "fractional" then Corr.calculateStandardCorrelation a c else pyFindCorrelation a c sel wt := by
  by_cases h : sel = "natural" ∧ wt = "fractional"
  · obtain ⟨rfl, rfl⟩ := h
    rw [if_pos (And.intro rfl rfl), ← calculateOn_res a c]
    rfl
  · rw [if_neg h, if_neg]
    · exact findOn_res a sel wt c
    · simpa [PyName.is] using h

/-- **C68**: for names that are strings the model with any Python object as name is the model the other theorems are about. -/
theorem C68_strings (a : AbsFn) (d : DS F) (minLag maxLag lagRes alpha ret : PyVal F) (sel wt : String) :
    anyAutocorrelation a d minLag maxLag lagRes alpha (.str sel) (.str wt) ret
      = pyAutocorrelation a d minLag maxLag lagRes alpha sel wt ret := by
  unfold anyAutocorrelation pyAutocorrelation
  apply Res.bind_congr
  intro c0 _
  apply Res.bind_congr
  intro c _
  rw [any_strings]

/-- the error of looking up a name that is not a string -/
def PyName.Error : PyName → Exc → Prop
  | .str _, _ => False
  | .obj r, e => e = .keyError r
  | .unhashable, e => e = .typeError

theorem findOn_raises {a : AbsFn} {sel wt : PyName} {c : Corr F} {e : Exc}
    (hstep : ∀ k i, nameStep a sel wt c k i = .exn e) (hlag : le c.minLag c.maxLag = true) :
    findOn a sel wt c = .exn e c := by
  unfold findOn lagLoop
  rw [if_pos hlag]
  simp only [hstep]
  generalize (if eq c.minLag zero then true else false) = q
  split <;> rfl

theorem findOn_no_lag {a : AbsFn} {sel wt : PyName} {c : Corr F} (hlag : le c.minLag c.maxLag = false) :
    findOn a sel wt c = .exn .unboundLocal c := by
  unfold findOn lagLoop
  rw [if_neg (by rw [hlag]; simp)]
  rfl

/-- **C68**: a selection function that is not given by a string raises `KeyError` (`TypeError` if it is unhashable) as soon as a lag is
due, whatever the weight function is; the correlator is as before. -/
theorem C68_selection (a : AbsFn) (c : Corr F) (sel wt : PyName) (e : Exc) (he : sel.Error e)
    (hlag : le c.minLag c.maxLag = true) : findOn a sel wt c = .exn e c := by
  apply findOn_raises _ hlag
  intro k i
  unfold nameStep
  cases sel with
  | str s => exact he.elim
  | obj r => simp only [PyName.Error] at he; subst he; rfl
  | unhashable => simp only [PyName.Error] at he; subst he; rfl

theorem findOn_weight {d : DS F} (hd : Constructed d) {c : Corr F} (hds : c.ds = d) (wt : PyName) (e : Exc)
    (he : wt.Error e) (hlag : le c.minLag c.maxLag = true) : findOn .fabs (.str "natural") wt c = .exn e c := by
  apply findOn_raises _ hlag
  intro k i
  have hplan : wt.lookup (weightFunction (F := F)) = .exn e := by
    cases wt with
    | str s => exact he.elim
    | obj r => simp only [PyName.Error] at he; subst he; rfl
    | unhashable => simp only [PyName.Error] at he; subst he; rfl
  obtain ⟨it, it', h1, _, _, h2, _⟩ := C39_natural_total d hd c hds k c.ds.N
  have hlook : (PyName.str "natural").lookup (selectionFunction (F := F) .fabs) = .ok (Corr.naturalSelection .fabs) := rfl
  unfold nameStep
  rw [hlook, Res.ok_bind, h1, Res.ok_bind, h2, Res.ok_bind, hplan]
  rfl

/-- **C68**: the same for the weight function, with natural selection and a floating-point `abs` – the selection is done before the weight
function is looked up. -/
theorem C68_weight (a : AbsFn) (d : DS F) (hd : Constructed d) (c : Corr F) (h : Reached a d c) (wt : PyName) (e : Exc)
    (he : wt.Error e) (hlag : le c.minLag c.maxLag = true) : findOn .fabs (.str "natural") wt c = .exn e c :=
  findOn_weight hd (h.good hd).2.1 wt e he hlag

/-- **C68**, seen from `autocorrelation`: what is raised when one of the names is not a string. -/
theorem C68_autocorrelation (a : AbsFn) (d : DS F) (c0 c : Corr F) (h0 : Corr.new d = .ok c0)
    (minLag maxLag lagRes alpha ret : PyVal F) (hc : pySetUpCorrelation c0 minLag maxLag lagRes alpha = .ok c)
    (sel wt : PyName) :
    (le c.minLag c.maxLag = true → ∀ e, sel.Error e →
      anyAutocorrelation a d minLag maxLag lagRes alpha sel wt ret = .exn e) ∧
    (le c.minLag c.maxLag = true → Constructed d → ∀ e, wt.Error e →
      anyAutocorrelation .fabs d minLag maxLag lagRes alpha (.str "natural") wt ret = .exn e) ∧
    (le c.minLag c.maxLag = false → (∃ e, sel.Error e ∨ wt.Error e) →
      anyAutocorrelation a d minLag maxLag lagRes alpha sel wt ret = .exn .unboundLocal) := by
  have key : ∀ a sel wt e, (PyName.is sel "natural" && PyName.is wt "fractional") = false → findOn a sel wt c = .exn e c →
      anyAutocorrelation a d minLag maxLag lagRes alpha sel wt ret = .exn e := by
    intro a sel wt e hn hf
    unfold anyAutocorrelation
    rw [h0, Res.ok_bind, hc, Res.ok_bind, hn, if_neg (by simp), hf]
    rfl
  have hsel : ∀ {n : PyName} {e : Exc} (s : String), n.Error e → n.is s = false := by
    intro n e s h
    cases n with
    | str s => exact h.elim
    | obj r => rfl
    | unhashable => rfl
  refine ⟨fun hlag e he => ?_, fun hlag hd e he => ?_, fun hlag ⟨e, he⟩ => ?_⟩
  · exact key _ _ _ _ (by rw [hsel _ he]; rfl) (C68_selection a c sel wt e he hlag)
  · refine key _ _ _ _ (by rw [hsel _ he]; simp) ?_
    apply findOn_weight hd _ wt e he hlag
    have hset : ∀ (set : Corr F → F → Corr F) (x : PyVal F) (c c' : Corr F), (∀ c v, (set c v).ds = c.ds) →
        setArg set x c = .ok c' → c'.ds = c.ds := by
      intro set x c c' hs h
      unfold setArg at h
      split at h
      · simp only [Res.ok.injEq] at h; rw [← h]
      · split at h
        · simp only [Res.ok.injEq] at h; rw [← h]; exact hs _ _
        · simp at h
    unfold pySetUpCorrelation at hc
    simp only [Res.bind_eq_ok] at hc
    obtain ⟨c1, e1, c2, e2, c3, e3, e4⟩ := hc
    rw [hset Corr.setAlpha _ _ _ (fun _ _ => rfl) e4, hset Corr.setLagResolution _ _ _ (fun _ _ => rfl) e3,
      hset Corr.setMinLag _ _ _ (fun _ _ => rfl) e2, hset Corr.setMaxLag _ _ _ (fun _ _ => rfl) e1]
    obtain ⟨n, _, rfl, _⟩ := corrNew_good hd.wf h0
    rfl
  · refine key _ _ _ _ ?_ (findOn_no_lag hlag)
    rcases he with he | he
    · rw [hsel _ he]; rfl
    · rw [hsel _ he]; simp

/-- `selection_function=None`, a list as weight function, and no lag due -/
example : ((mkFlat (q [0, 1, 3]) (q [1, 2, 6])).bind fun d =>
    (anyAutocorrelation .fabs d .none .none .none .none (.obj "None") (.str "gaussian")).bind fun _ => .ok ())
    = .exn (.keyError "None") := by decide +kernel
example : ((mkFlat (q [0, 1, 3]) (q [1, 2, 6])).bind fun d =>
    (anyAutocorrelation .fabs d .none .none .none .none (.str "natural") .unhashable).bind fun _ => .ok ())
    = .exn .typeError := by decide +kernel
example : ((mkFlat (q [0, 1, 3]) (q [1, 2, 6])).bind fun d =>
    (anyAutocorrelation .fabs d (.float (.fin 9)) .none .none .none (.str "natural") .unhashable).bind fun _ => .ok ())
    = .exn .unboundLocal := by decide +kernel

/-! ## C69 -/

theorem lastOr_cons (x y : F) (l : List F) : lastOr (x :: l) y = lastOr l x := by
  unfold lastOr
  rw [List.getLast?_cons, Option.getD_some]

/-- every call except the matching assignment leaves a parameter alone; the assignment of a number sets it, of anything else raises -/
theorem scall_param {a : AbsFn} {c : Corr F} {x : SCall F} :
    Out.All (fun s => s.maxLag = lastOr x.maxLagArg.toList c.maxLag ∧ s.minLag = lastOr x.minLagArg.toList c.minLag ∧
      s.lagRes = lastOr x.lagResArg.toList c.lagRes ∧ s.alpha = lastOr x.alphaArg.toList c.alpha) (x.run a c) := by
  have hk : ∀ {y : Out (Corr F) Unit}, Out.All (fun s => (c.Good → s.Good) ∧ c.Kept s) y →
      Out.All (fun s => s.maxLag = c.maxLag ∧ s.minLag = c.minLag ∧ s.lagRes = c.lagRes ∧ s.alpha = c.alpha) y := by
    intro y h
    cases y <;> simp_all [Out.All]
    · exact ⟨h.2.maxLag, h.2.minLag, h.2.lagRes, h.2.alpha⟩
    · exact ⟨h.2.maxLag, h.2.minLag, h.2.lagRes, h.2.alpha⟩
  have hs : ∀ (r : Res (Corr F)), (∀ s, r = .ok s → c.Kept s) →
      Out.All (fun s => s.maxLag = c.maxLag ∧ s.minLag = c.minLag ∧ s.lagRes = c.lagRes ∧ s.alpha = c.alpha) (Out.step c r) := by
    intro r h
    cases r with
    | ok s => exact ⟨(h s rfl).maxLag, (h s rfl).minLag, (h s rfl).lagRes, (h s rfl).alpha⟩
    | exn e => exact ⟨rfl, rfl, rfl, rfl⟩
    | ub => trivial
    | diverge => trivial
  cases x with
  | setMaxLag v =>
    simp only [SCall.run, assignOn, SCall.maxLagArg, SCall.minLagArg, SCall.lagResArg, SCall.alphaArg]
    cases v.asNum true <;> exact ⟨rfl, rfl, rfl, rfl⟩
  | setMinLag v =>
    simp only [SCall.run, assignOn, SCall.maxLagArg, SCall.minLagArg, SCall.lagResArg, SCall.alphaArg]
    cases v.asNum true <;> exact ⟨rfl, rfl, rfl, rfl⟩
  | setLagResolution v =>
    simp only [SCall.run, assignOn, SCall.maxLagArg, SCall.minLagArg, SCall.lagResArg, SCall.alphaArg]
    cases v.asNum true <;> exact ⟨rfl, rfl, rfl, rfl⟩
  | setAlpha v =>
    simp only [SCall.run, assignOn, SCall.maxLagArg, SCall.minLagArg, SCall.lagResArg, SCall.alphaArg]
    cases v.asNum true <;> exact ⟨rfl, rfl, rfl, rfl⟩
  | calculate => exact hk (calculateOn_kept a c)
  | find sel wt => exact hk (findOn_kept a sel wt c)
  | add it step => exact hs _ fun s h => (addOn_ok h).kept
  | clean i =>
    refine hs _ fun s h => ?_
    obtain ⟨n, h⟩ := cleanOn_ok h
    exact clean_kept h
  | clear => exact ⟨rfl, rfl, rfl, rfl⟩

theorem lastOr_append (l l' : List F) (x : F) : lastOr (l ++ l') x = lastOr l' (lastOr l x) := by
  unfold lastOr
  rw [List.getLast?_append]
  cases l'.getLast? <;> rfl

theorem filterMap_cons_toList {α β : Type} (f : α → Option β) (x : α) (l : List α) :
    (x :: l).filterMap f = (f x).toList ++ l.filterMap f := by
  rw [List.filterMap_cons]
  cases f x <;> rfl

/-- **C69**: `max_lag`, `min_lag`, `lag_resolution` and `alpha` are at all times the number last assigned to them – assignments of something
else raise and do nothing, and no computation and no other call changes them – or the value they had at the start. -/
theorem C69_parameters (a : AbsFn) (c c' : Corr F) (calls : List (SCall F)) (log : List (Option Exc))
    (h : runSession a c calls = .ok (c', log)) :
    c'.getMaxLag = lastOr (calls.filterMap SCall.maxLagArg) c.getMaxLag ∧
    c'.getMinLag = lastOr (calls.filterMap SCall.minLagArg) c.getMinLag ∧
    c'.getLagResolution = lastOr (calls.filterMap SCall.lagResArg) c.getLagResolution ∧
    c'.getAlpha = lastOr (calls.filterMap SCall.alphaArg) c.getAlpha := by
  induction calls generalizing c log with
  | nil => simp [runSession] at h; obtain ⟨rfl, _⟩ := h; exact ⟨rfl, rfl, rfl, rfl⟩
  | cons x xs ih =>
    have hx := scall_param (a := a) (c := c) (x := x)
    have main : ∀ s l, runSession a s xs = .ok (c', l) →
        (s.maxLag = lastOr x.maxLagArg.toList c.maxLag ∧ s.minLag = lastOr x.minLagArg.toList c.minLag ∧
          s.lagRes = lastOr x.lagResArg.toList c.lagRes ∧ s.alpha = lastOr x.alphaArg.toList c.alpha) →
        c'.getMaxLag = lastOr ((x :: xs).filterMap SCall.maxLagArg) c.getMaxLag ∧
        c'.getMinLag = lastOr ((x :: xs).filterMap SCall.minLagArg) c.getMinLag ∧
        c'.getLagResolution = lastOr ((x :: xs).filterMap SCall.lagResArg) c.getLagResolution ∧
        c'.getAlpha = lastOr ((x :: xs).filterMap SCall.alphaArg) c.getAlpha := by
      intro s l hs ⟨p1, p2, p3, p4⟩
      obtain ⟨i1, i2, i3, i4⟩ := ih s l hs
      simp only [Corr.getMaxLag, Corr.getMinLag, Corr.getLagResolution, Corr.getAlpha] at i1 i2 i3 i4 ⊢
      simp only [filterMap_cons_toList, lastOr_append, i1, i2, i3, i4, p1, p2, p3, p4, and_self]
    unfold runSession at h
    cases hr : x.run a c with
    | ok _ s =>
      rw [hr] at h hx
      simp only [Res.bind_eq_ok, Res.ok.injEq, Prod.mk.injEq] at h
      obtain ⟨⟨s', l⟩, h1, h2, _⟩ := h
      simp only at h2; subst h2
      exact main s l h1 hx
    | exn e s =>
      rw [hr] at h hx
      simp only [Res.bind_eq_ok, Res.ok.injEq, Prod.mk.injEq] at h
      obtain ⟨⟨s', l⟩, h1, h2, _⟩ := h
      simp only at h2; subst h2
      exact main s l h1 hx
    | ub => rw [hr] at h; simp at h
    | diverge => rw [hr] at h; simp at h

/-- **C69**: the attributes of a correlator that describe the data are those of its `DataStructure`, at all times. -/
theorem C69_data (a : AbsFn) (d : DS F) (hd : Constructed d) (c : Corr F) (h : Reached a d c) :
    c.values = d.data2d ∧ c.normalisedTimeseries = d.normT ∧ c.nDatasets = ofInt d.N ∧
      c.mDatapoints = ofInt d.timeseries.length := by
  obtain ⟨_, hds, _⟩ := h.good hd
  obtain ⟨t, data, err, N, _, hb⟩ := hd.built
  refine ⟨by unfold Corr.values; rw [hds], by unfold Corr.normalisedTimeseries; rw [hds], by unfold Corr.nDatasets; rw [hds], ?_⟩
  unfold Corr.mDatapoints DS.timeseries
  rw [hds, hb.hM, hb.ht]

/-- `max_lag` set to 2, then to a text, then the computation; `alpha` set to an `int` -/
example : (((mkFlat (q [0, 1, 3]) (q [1, 2, 6])).bind Corr.new).bind fun c =>
    (runSession .fabs c [.setMaxLag (.float (.fin 2)), .setMaxLag (.str "all"), .setAlpha (.int (some (.fin 5))), .calculate]).bind fun p =>
      .ok (p.2, p.1.getMaxLag, p.1.getMinLag, p.1.getAlpha))
    = .ok ([none, some .typeError, none, none], .fin 2, .fin (-3), .fin 5) := by decide +kernel

end Sacf
