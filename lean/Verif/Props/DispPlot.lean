import Verif.Model.DispPlot
import Verif.Props.Disptools
import Verif.Props.Plot
import Verif.Props.Grid

/-!
# C105–C107: plotted dispersions, densities of states and bands
-/

set_option autoImplicit false
set_option linter.unusedSectionVars false

namespace Lattpy
namespace DispPlot

/-! ## specification -/

/-- The colour asked for band `i`: `C0`, `C1`, … by default, the same colour for all bands, the
`i`-th of a list; the colour of an atom stands for the atom. -/
def Asked (s : Session) (color : ColorArg) (i : ℕ) (c : PyVal) : Prop :=
  match color with
  | .none => c = .str ("C" ++ toString i)
  | .str t => c = .str t
  | .single v => c = v
  | .list l => l[i]? = some (.value c) ∨ ∃ a, l[i]? = some (.atom a) ∧ s.param a "color" = .ok c
  | .atom a => s.param a "color" = .ok c

/-- One line per band over the axis `k`, in the colour asked for; if `fill`, one box per band in the
colour of the line, as wide as the axis and as high as the band. -/
structure Drawn {K : Type*} [LinearOrder K] [Zero K] {n w : ℕ} (s : Session) (color : ColorArg)
    (k : List K) (disp : Fin n → Fin w → K) (fill : Bool) (G : DispFigure K) : Prop where
  lines_length : G.lines.length = w
  line : ∀ i : Fin w, ∃ l, G.lines[i.val]? = some l ∧ l.x = k ∧
    l.y = List.ofFn (fun r => disp r i) ∧ Asked s color i l.color
  fills : fill = true → G.fills.length = w ∧ ∀ i : Fin w, ∃ f l, G.fills[i.val]? = some f ∧
    G.lines[i.val]? = some l ∧ f.color = l.color ∧ f.x0 = 0 ∧ IsGreatest {x | x ∈ k} f.x1 ∧
    IsLeast (Set.range fun r => disp r i) f.y0 ∧ IsGreatest (Set.range fun r => disp r i) f.y1
  no_fills : fill = false → G.fills = []

/-- A grid that Matplotlib accepts: none, or a known axis and the keyword `b`. -/
def GridOk (b : Bool) : GridArg → Prop
  | .off => True
  | .axis name => name = "" ∨ (b = true ∧ (name = "x" ∨ name = "y" ∨ name = "both"))
  | .on => b = true

/-! ## lemmas -/

section
variable {K : Type*}

theorem bandColor_ok {s : Session} {color : ColorArg} {w i : ℕ} (hi : i < w) {c : PyVal}
    (h : Asked s color i c) (hna : ∀ a, color ≠ .atom a) :
    bandColor s (colorList color w) i = .ok c := by
  cases color with
  | none =>
    have : ((List.range w).map fun i => BandColor.value (.str ("C" ++ toString i)))[i]? =
        some (.value (.str ("C" ++ toString i))) := by
      rw [List.getElem?_map, List.getElem?_range hi]
      rfl
    unfold colorList bandColor
    dsimp only
    rw [this, h]
  | str t =>
    unfold colorList bandColor
    dsimp only
    rw [List.getElem?_replicate, if_pos hi, h]
  | single v =>
    unfold colorList bandColor
    dsimp only
    rw [List.getElem?_replicate, if_pos hi, h]
  | list l =>
    unfold colorList bandColor
    dsimp only
    rcases h with h | ⟨a, h, hc⟩
    · rw [h]
    · rw [h]
      exact hc
  | atom a => exact absurd rfl (hna a)

theorem asked_of_bandColor {s : Session} {color : ColorArg} {w i : ℕ} {c : PyVal}
    (h : bandColor s (colorList color w) i = .ok c) : Asked s color i c := by
  cases color with
  | none =>
    unfold colorList bandColor at h
    dsimp only at h
    rw [List.getElem?_map] at h
    by_cases hi : i < w
    · rw [List.getElem?_range hi] at h
      dsimp only [Option.map_some] at h
      cases h
      rfl
    · rw [List.getElem?_eq_none (by simpa using hi)] at h
      cases h
  | str t =>
    unfold colorList bandColor at h
    dsimp only at h
    rw [List.getElem?_replicate] at h
    by_cases hi : i < w
    · rw [if_pos hi] at h
      cases h
      rfl
    · rw [if_neg hi] at h
      cases h
  | single v =>
    unfold colorList bandColor at h
    dsimp only at h
    rw [List.getElem?_replicate] at h
    by_cases hi : i < w
    · rw [if_pos hi] at h
      cases h
      rfl
    · rw [if_neg hi] at h
      cases h
  | list l =>
    unfold colorList bandColor at h
    dsimp only at h
    cases hl : l[i]? with
    | none => rw [hl] at h; cases h
    | some x =>
      cases x with
      | value v =>
        rw [hl] at h
        cases h
        exact Or.inl hl
      | atom a =>
        rw [hl] at h
        exact Or.inr ⟨a, hl, h⟩
  | atom a => cases h

variable [LinearOrder K]

theorem minOf_ok {l : List K} {x : K} (h : minOf l = .ok x) : IsLeast {y | y ∈ l} x := by
  cases l with
  | nil => cases h
  | cons a l =>
    cases h
    have := foldl_min_isLeast l a
    simpa [List.mem_cons] using this

theorem maxOf_ok {l : List K} {x : K} (h : maxOf l = .ok x) : IsGreatest {y | y ∈ l} x := by
  cases l with
  | nil => cases h
  | cons a l =>
    cases h
    have := foldl_max_isGreatest l a
    simpa [List.mem_cons] using this

theorem minOf_total {l : List K} (h : l ≠ []) : ∃ x, minOf l = .ok x := by
  cases l with
  | nil => exact absurd rfl h
  | cons a l => exact ⟨_, rfl⟩

theorem maxOf_total {l : List K} (h : l ≠ []) : ∃ x, maxOf l = .ok x := by
  cases l with
  | nil => exact absurd rfl h
  | cons a l => exact ⟨_, rfl⟩

omit [LinearOrder K] in
theorem mem_column {n w : ℕ} (disp : Fin n → Fin w → K) (i : Fin w) :
    {y | y ∈ column disp i} = Set.range fun r => disp r i := by
  ext y
  simp [column, List.mem_ofFn]

variable [Zero K]

theorem drawBand_ok {n w : ℕ} {s : Session} {k : List K} {kmax : K} {disp : Fin n → Fin w → K}
    {color : ColorArg} {fill : Bool} {i : Fin w} {r : BandLine K × List (Fill K)}
    (h : drawBand s k kmax disp (colorList color w) fill i = .ok r) :
    r.1.x = k ∧ r.1.y = column disp i ∧ k.length = n ∧ Asked s color i r.1.color ∧
      (fill = false → r.2 = []) ∧ (fill = true → ∃ f, r.2 = [f] ∧ f.color = r.1.color ∧ f.x0 = 0 ∧
        f.x1 = kmax ∧ IsLeast (Set.range fun r => disp r i) f.y0 ∧
        IsGreatest (Set.range fun r => disp r i) f.y1) := by
  unfold drawBand at h
  cases hc : bandColor s (colorList color w) i with
  | error e => rw [hc] at h; cases h
  | ok c =>
    rw [hc] at h
    dsimp only at h
    unfold plotLine at h
    by_cases hl : k.length = (column disp i).length
    · rw [if_pos hl] at h
      dsimp only at h
      have hn : k.length = n := by rw [hl]; simp [column]
      cases fill with
      | false =>
        rw [if_neg (by simp)] at h
        cases h
        exact ⟨rfl, rfl, hn, asked_of_bandColor hc, fun _ => rfl, nofun⟩
      | true =>
        rw [if_pos rfl] at h
        unfold fillBand at h
        cases h1 : minOf (column disp i) with
        | error e => rw [h1] at h; cases h
        | ok a =>
          cases h2 : maxOf (column disp i) with
          | error e => rw [h1, h2] at h; cases h
          | ok b =>
            rw [h1, h2] at h
            cases h
            have g1 := minOf_ok h1
            have g2 := maxOf_ok h2
            rw [mem_column] at g1 g2
            exact ⟨rfl, rfl, hn, asked_of_bandColor hc, nofun, fun _ =>
              ⟨_, rfl, rfl, rfl, rfl, g1, g2⟩⟩
    · rw [if_neg hl] at h
      cases h

theorem drawBand_total {n w : ℕ} {s : Session} {k : List K} {disp : Fin n → Fin w → K}
    {color : ColorArg} (hk : k.length = n) (hn : 0 < n) (hna : ∀ a, color ≠ .atom a) {i : Fin w}
    (hc : ∃ c, Asked s color i c) (kmax : K) (fill : Bool) :
    ∃ r, drawBand s k kmax disp (colorList color w) fill i = .ok r := by
  obtain ⟨c, hc⟩ := hc
  have hne : column disp i ≠ [] := by
    intro h
    have := congrArg List.length h
    simp [column] at this
    omega
  obtain ⟨a, ha⟩ := minOf_total hne
  obtain ⟨b, hb⟩ := maxOf_total hne
  unfold drawBand plotLine fillBand
  rw [bandColor_ok i.2 hc hna]
  dsimp only
  rw [if_pos (by simp [column, hk]), ha, hb]
  dsimp only
  cases fill
  · exact ⟨_, if_neg (by simp)⟩
  · exact ⟨_, if_pos rfl⟩

/-- What the loop over the bands draws. -/
theorem drawBands_ok {n w : ℕ} {s : Session} {k : List K} {disp : Fin n → Fin w → K}
    {color : ColorArg} {fill : Bool} {l : List (BandLine K × List (Fill K))}
    (h : drawBands s k disp (colorList color w) fill = .ok l) (frame : Option (Frame K))
    (dos : List (BandLine K)) :
    Drawn s color k disp fill ⟨frame, l.map Prod.fst, l.flatMap Prod.snd, dos⟩ := by
  unfold drawBands at h
  cases hm : maxOf k with
  | error e => rw [hm] at h; cases h
  | ok kmax =>
    rw [hm] at h
    dsimp only at h
    obtain ⟨h1, h2⟩ := mapM_inv _ _ _ h
    rw [List.length_finRange] at h1
    have h3 : ∀ i : Fin w, ∃ r, l[i.val]? = some r ∧
        drawBand s k kmax disp (colorList color w) fill i = .ok r := by
      intro i
      obtain ⟨r, hr, hd⟩ := h2 i i (by simp)
      exact ⟨r, hr, hd⟩
    have hfill : fill = true → ∃ fs : List (Fill K), l.flatMap Prod.snd = fs ∧ fs.length = w ∧
        ∀ i : Fin w, ∃ r f, l[i.val]? = some r ∧ fs[i.val]? = some f ∧ r.2 = [f] := by
      intro hf
      have hone : ∀ r ∈ l, ∃ f, r.2 = [f] := by
        intro r hr
        obtain ⟨i, hi, rfl⟩ := List.getElem_of_mem hr
        obtain ⟨r', hr', hd⟩ := h3 ⟨i, by omega⟩
        rw [List.getElem?_eq_getElem hi] at hr'
        cases hr'
        obtain ⟨-, -, -, -, -, g⟩ := drawBand_ok hd
        obtain ⟨f, hf', -⟩ := g hf
        exact ⟨f, hf'⟩
      have hex : ∀ l : List (BandLine K × List (Fill K)), (∀ r ∈ l, ∃ f, r.2 = [f]) →
          (l.flatMap Prod.snd).length = l.length ∧ ∀ (i : ℕ) (r : BandLine K × List (Fill K)),
            l[i]? = some r →
            ∃ f, (l.flatMap Prod.snd)[i]? = some f ∧ r.2 = [f] := by
        intro l
        induction l with
        | nil => exact fun _ => ⟨rfl, by simp⟩
        | cons r l ih =>
          intro hl
          obtain ⟨f, hf⟩ := hl r (by simp)
          obtain ⟨i1, i2⟩ := ih fun r hr => hl r (by simp [hr])
          rw [List.flatMap_cons, hf]
          refine ⟨by simp [i1], fun i r' hr' => ?_⟩
          cases i with
          | zero =>
            cases hr'
            exact ⟨f, rfl, hf⟩
          | succ i => exact i2 i r' hr'
      obtain ⟨e1, e2⟩ := hex l hone
      refine ⟨_, rfl, by rw [e1, h1], fun i => ?_⟩
      obtain ⟨r, hr, -⟩ := h3 i
      obtain ⟨f, hf1, hf2⟩ := e2 i r hr
      exact ⟨r, f, hr, hf1, hf2⟩
    refine ⟨by simpa using h1, fun i => ?_, fun hf => ?_, fun hf => ?_⟩
    · obtain ⟨r, hr, hd⟩ := h3 i
      obtain ⟨g1, g2, -, g4, -⟩ := drawBand_ok hd
      exact ⟨r.1, by rw [List.getElem?_map, hr]; rfl, g1, g2, g4⟩
    · obtain ⟨fs, e1, e2, e3⟩ := hfill hf
      dsimp only
      rw [e1]
      refine ⟨e2, fun i => ?_⟩
      obtain ⟨r, hr, hd⟩ := h3 i
      obtain ⟨-, -, -, -, -, g⟩ := drawBand_ok hd
      obtain ⟨f, f1, f2, f3, f4, f5, f6⟩ := g hf
      obtain ⟨r', f', e4, e5, e6⟩ := e3 i
      rw [hr] at e4
      cases e4
      rw [f1] at e6
      cases e6
      exact ⟨f, r.1, e5, by rw [List.getElem?_map, hr]; rfl, f2, f3, by
        rw [f4]; exact maxOf_ok hm, f5, f6⟩
    · dsimp only
      rw [List.flatMap_eq_nil_iff]
      intro r hr
      obtain ⟨i, hi, rfl⟩ := List.getElem_of_mem hr
      obtain ⟨r', hr', hd⟩ := h3 ⟨i, by omega⟩
      rw [List.getElem?_eq_getElem hi] at hr'
      cases hr'
      exact (drawBand_ok hd).2.2.2.2.1 hf

theorem drawBands_total {n w : ℕ} {s : Session} {k : List K} {disp : Fin n → Fin w → K}
    {color : ColorArg} (hk : k.length = n) (hn : 0 < n) (hna : ∀ a, color ≠ .atom a)
    (hc : ∀ i : Fin w, ∃ c, Asked s color i c) (fill : Bool) :
    ∃ l, drawBands s k disp (colorList color w) fill = .ok l := by
  obtain ⟨kmax, hm⟩ := maxOf_total (l := k) (by rintro rfl; simp at hk; omega)
  obtain ⟨l, hl, -⟩ := mapM_total (l := List.finRange w)
    (f := fun i => drawBand s k kmax disp (colorList color w) fill i)
    fun i _ => drawBand_total hk hn hna (hc i) kmax fill
  refine ⟨l, ?_⟩
  unfold drawBands
  rw [hm]
  exact hl

omit [LinearOrder K] [Zero K] in
theorem makeFrame_ok {ticks : List K} {labels : List String} (h : ticks.length = labels.length)
    (hne : ticks ≠ []) : ∃ r, ticks.getLast? = some r ∧
      makeFrame ticks labels = .ok ⟨r, ticks, labels⟩ := by
  refine ⟨ticks.getLast hne, List.getLast?_eq_some_getLast hne, ?_⟩
  unfold makeFrame
  rw [List.getLast?_eq_some_getLast hne]
  dsimp only
  rw [if_pos h]

theorem pathGrid_ok {b : Bool} {grid : GridArg} (h : GridOk b grid) : pathGrid b grid = .ok () := by
  cases grid with
  | off => rfl
  | axis name =>
    unfold pathGrid
    rcases h with h | ⟨rfl, h⟩
    · exact if_pos h
    · dsimp only
      by_cases h0 : name = ""
      · exact if_pos h0
      · rw [if_neg h0]
        unfold callGrid
        rw [if_pos h, if_pos rfl]
  | on =>
    cases h
    rfl

end

section
variable {K : Type*} [Field K] [LinearOrder K] [IsStrictOrderedRing K] [FloorRing K]

/-- The ticks and labels of a new figure. -/
def NewFrame (newAxes : Bool) (ticks : List K) (labels : List String) (G : DispFigure K) : Prop :=
  (newAxes = true → ∃ r, ticks.getLast? = some r ∧ G.frame = some ⟨r, ticks, labels⟩) ∧
    (newAxes = false → G.frame = none)

/-- C105 (restricted to a number of wave vectors that is a multiple of the number of sections, one
scale per section, a colour for each band not given as a single atom, and a grid that Matplotlib
accepts): `plot_dispersion` succeeds and draws every band over the scaled axis in the colour asked
for; wave vector `j` of section `i` is at `j` times the scale of the section beyond tick `i`; a new
figure has a tick with its label for each point of the path, and ends at the last one. -/
theorem C105_plot_partial {w : ℕ} (b : Bool) (s : Session) (N m : ℕ) (hm : 0 < m)
    (disp : Fin ((N + 1) * m) → Fin w → K) (labels : List String) (hl : labels.length = N + 2)
    (grid : GridArg) (color : ColorArg) (hc : ∀ i : Fin w, ∃ c, Asked s color i c)
    (hna : ∀ a, color ≠ .atom a) (scales : Option (List K)) (ss : List K)
    (hss : scales = some ss ∨ scales = none ∧ ss = List.replicate (N + 1) 1)
    (hsl : ss.length = N + 1) (fill newAxes : Bool) (hg : newAxes = true → GridOk b grid) :
    ∃ G k ticks, plotDispersion b s disp labels grid color scales fill newAxes = .ok G ∧
      Drawn s color k disp fill G ∧ G.dos = [] ∧ NewFrame newAxes ticks labels G ∧
      ticks.length = N + 2 ∧ ticks[0]? = some 0 ∧
      (∀ (i j : ℕ) (c : K), ss[i]? = some c → j < m → ∃ t, ticks[i]? = some t ∧
        k[i * m + j]? = some (t + (j : K) * c)) ∧
      ∀ i, i < N + 1 → ticks[i + 1]? = k[i * m + (m - 1)]? := by
  obtain ⟨k, ticks, h1, h2, h3, h4, h5, h6, -⟩ := C75_axis_partial N m hm ss hsl
  have hx : scaleXaxis labels.length ((N + 1) * m) scales = .ok (k, ticks) := by
    rw [hl]
    rcases hss with rfl | ⟨rfl, rfl⟩
    · exact h1
    · rw [C75_default_scales]
      exact h1
  obtain ⟨l, hd⟩ := drawBands_total (disp := disp) h2 (Nat.mul_pos (by omega) hm) hna hc fill
  obtain ⟨r, hr, hf⟩ := makeFrame_ok (ticks := ticks) (labels := labels) (by rw [h3, hl])
    (by rintro rfl; simp at h3)
  have hframe : ∃ fr, newFrame newAxes (bandpathSubplots b ticks labels grid) = .ok fr ∧
      (newAxes = true → fr = some ⟨r, ticks, labels⟩) ∧ (newAxes = false → fr = none) := by
    cases newAxes with
    | false => exact ⟨none, rfl, nofun, fun _ => rfl⟩
    | true =>
      refine ⟨some ⟨r, ticks, labels⟩, ?_, fun _ => rfl, nofun⟩
      unfold newFrame bandpathSubplots
      rw [hf, pathGrid_ok (hg rfl)]
      rfl
  obtain ⟨fr, e1, e2, e3⟩ := hframe
  refine ⟨⟨fr, l.map Prod.fst, l.flatMap Prod.snd, []⟩, k, ticks, ?_, drawBands_ok hd fr [], rfl,
    ⟨fun h => ⟨r, hr, e2 h⟩, e3⟩, h3, h4, h5, h6⟩
  unfold plotDispersion
  rw [hx]
  dsimp only
  rw [e1]
  dsimp only
  rw [hd]

/-- Two bands on a path of three points with four wave vectors per section, the second section half as
long: the last wave vector is at `3 + 3 / 2`. -/
example (s : Session) : ∃ G k, plotDispersion true s (fun (r : Fin ((1 + 1) * 4)) (i : Fin 2) =>
      (r.val : ℚ) * i.val) ["G", "X", "M"] (.axis "both") .none (some [1, 1 / 2]) true true = .ok G ∧
    (∃ l f, G.lines[1]? = some l ∧ l.color = .str "C1" ∧ l.x = k ∧ G.fills[1]? = some f ∧ f.y1 = 7) ∧
    k[7]? = some (9 / 2) := by
  obtain ⟨G, k, ticks, h1, h2, -, -, -, h4, h5, h6⟩ := C105_plot_partial (K := ℚ) true s 1 4
    (by decide) (fun (r : Fin ((1 + 1) * 4)) (i : Fin 2) => (r.val : ℚ) * i.val) ["G", "X", "M"] rfl
    (.axis "both") .none (fun _ => ⟨_, rfl⟩) nofun (some [1, 1 / 2]) [1, 1 / 2] (Or.inl rfl) rfl true
    true (fun _ => Or.inr ⟨rfl, Or.inr (Or.inr rfl)⟩)
  refine ⟨G, k, h1, ?_, ?_⟩
  · obtain ⟨l, hl, hx, -, hc⟩ := h2.line 1
    obtain ⟨f, -, hf, -, -, -, -, -, hm⟩ := (h2.fills rfl).2 1
    refine ⟨l, f, hl, hc, hx, hf, hm.unique ⟨⟨7, by norm_num⟩, ?_⟩⟩
    rintro _ ⟨r, rfl⟩
    have : (r.val : ℚ) ≤ 7 := by exact_mod_cast (by omega : r.val ≤ 7)
    simpa using this
  · obtain ⟨t0, a0, b0⟩ := h5 0 3 1 rfl (by decide)
    rw [h4] at a0
    cases a0
    obtain ⟨t, a1, b1⟩ := h5 1 3 (1 / 2) rfl (by decide)
    have := h6 0 (by decide)
    rw [a1] at this
    norm_num at b0 this
    rw [b0] at this
    cases this
    norm_num at b1
    rw [b1]

/-- C105: if the number of wave vectors is no multiple of the number of sections (and there are some),
nothing can be plotted: the axis is longer than the bands and Matplotlib raises a `ValueError`. -/
theorem C105_length_fails {n w : ℕ} (hw : 0 < w) (b : Bool) (s : Session) (N : ℕ)
    (hn : ¬ (N + 1) ∣ n) (disp : Fin n → Fin w → K) (labels : List String)
    (hl : labels.length = N + 2) (grid : GridArg) (color : ColorArg)
    (hc : ∀ i : Fin w, ∃ c, Asked s color i c) (hna : ∀ a, color ≠ .atom a)
    (scales : Option (List K)) (hss : ∀ ss, scales = some ss → ss.length = N + 1)
    (fill newAxes : Bool) :
    plotDispersion b s disp labels grid color scales fill newAxes = .error .value := by
  set m := ⌈(n : K) / ((N + 1 : ℕ) : K)⌉.toNat with hm
  have hn0 : 0 < n := Nat.pos_of_ne_zero fun h => hn (h ▸ dvd_zero _)
  have hN : (0 : K) < ((N + 1 : ℕ) : K) := by exact_mod_cast Nat.succ_pos N
  have hmpos : 0 < m := by
    rw [hm, Int.lt_toNat]
    exact Int.ceil_pos.2 (div_pos (by exact_mod_cast hn0) hN)
  obtain ⟨ss, hs1, hs2⟩ : ∃ ss : List K, ss.length = N + 1 ∧
      scaleXaxis (N + 2) n scales = scaleXaxis (N + 2) n (some ss) := by
    cases scales with
    | none => exact ⟨List.replicate (N + 1) 1, by simp, C75_default_scales N n⟩
    | some ss => exact ⟨ss, hss ss rfl, rfl⟩
  have hx : ∃ k ticks, scaleXaxis labels.length n scales = .ok (k, ticks) ∧
      k.length = (N + 1) * m ∧ ticks ≠ [] := by
    rw [hl, hs2]
    unfold scaleXaxis
    dsimp only
    rw [scaleLoop_eq _ hmpos]
    refine ⟨_, _, rfl, ?_, by simp⟩
    rw [List.nil_append, DispPath.flatMap_block_length m _ (fun p => by simp), List.length_zipIdx, hs1]
  obtain ⟨k, ticks, hx, hk, hne⟩ := hx
  have hkn : k.length ≠ n := fun h => hn ⟨m, by rw [← h, hk]⟩
  obtain ⟨kmax, hkm⟩ := maxOf_total (l := k) (by
    rintro rfl
    rw [List.length_nil] at hk
    exact absurd hk (Nat.mul_pos (Nat.succ_pos N) hmpos).ne)
  have hband : ∀ i : Fin w, drawBand s k kmax disp (colorList color w) fill i = .error .value := by
    intro i
    obtain ⟨c, hc⟩ := hc i
    unfold drawBand plotLine
    rw [bandColor_ok i.2 hc hna]
    dsimp only
    rw [if_neg (by simpa [column] using hkn)]
  have hdraw : drawBands s k disp (colorList color w) fill = .error .value := by
    unfold drawBands
    rw [hkm]
    exact mapM_error _ _ _ (fun i _ => Or.inr (hband i)) ⟨⟨0, hw⟩, by simp, hband _⟩
  have hgrid : ∀ g, pathGrid b grid = .error g → g = .value := by
    intro g hg
    have hcall : ∀ name, callGrid b name = .error g → g = .value := by
      intro name h
      unfold callGrid at h
      split_ifs at h <;> cases h <;> rfl
    cases grid with
    | off => cases hg
    | axis name =>
      unfold pathGrid at hg
      dsimp only at hg
      split_ifs at hg
      exact hcall _ hg
    | on => exact hcall _ hg
  unfold plotDispersion
  rw [hx]
  dsimp only
  cases hfr : newFrame newAxes (bandpathSubplots b ticks labels grid) with
  | ok fr =>
    dsimp only
    rw [hdraw]
  | error e =>
    dsimp only
    unfold newFrame bandpathSubplots at hfr
    cases newAxes with
    | false => cases hfr
    | true =>
      rw [if_pos rfl] at hfr
      unfold makeFrame at hfr
      rw [List.getLast?_eq_some_getLast hne] at hfr
      dsimp only at hfr
      split_ifs at hfr with ht
      · cases hpg : pathGrid b grid with
        | ok u => rw [hpg] at hfr; cases hfr
        | error g =>
          rw [hpg] at hfr
          injection hfr with hfr
          rw [← hfr, hgrid g hpg]
      · cases hfr
        rfl

/-- Five wave vectors on a path of three points. -/
example (s : Session) : ¬ (1 + 1) ∣ 5 ∧ (["G", "X", "G"] : List String).length = 1 + 2 ∧
    ∀ i : Fin 2, ∃ c, Asked s .none i c := ⟨by decide, rfl, fun _ => ⟨_, rfl⟩⟩

/-- C105: one atom for all bands raises a `KeyError`, although the atoms of a list are replaced by
their colours: an atom is a mapping with a length and is taken for a list of colours. -/
theorem C105_atom_fails {w : ℕ} (hw : 0 < w) (b : Bool) (s : Session) (N m : ℕ) (hm : 0 < m)
    (disp : Fin ((N + 1) * m) → Fin w → K) (labels : List String) (hl : labels.length = N + 2)
    (grid : GridArg) (a : Atom) (scales : Option (List K))
    (hss : ∀ ss, scales = some ss → ss.length = N + 1) (fill newAxes : Bool)
    (hg : newAxes = true → GridOk b grid) :
    plotDispersion b s disp labels grid (.atom a) scales fill newAxes = .error .key := by
  obtain ⟨ss, hs1, hs2⟩ : ∃ ss : List K, ss.length = N + 1 ∧
      scaleXaxis (N + 2) ((N + 1) * m) scales = scaleXaxis (N + 2) ((N + 1) * m) (some ss) := by
    cases scales with
    | none => exact ⟨List.replicate (N + 1) 1, by simp, C75_default_scales N _⟩
    | some ss => exact ⟨ss, hss ss rfl, rfl⟩
  obtain ⟨k, ticks, h1, h2, h3, -⟩ := C75_axis_partial N m hm ss hs1
  obtain ⟨r, hr, hf⟩ := makeFrame_ok (ticks := ticks) (labels := labels) (by rw [h3, hl])
    (by rintro rfl; simp at h3)
  have hframe : ∃ fr, newFrame newAxes (bandpathSubplots b ticks labels grid) = .ok fr := by
    cases newAxes with
    | false => exact ⟨none, rfl⟩
    | true =>
      refine ⟨some ⟨r, ticks, labels⟩, ?_⟩
      unfold newFrame bandpathSubplots
      rw [hf, pathGrid_ok (hg rfl)]
      rfl
  obtain ⟨fr, e1⟩ := hframe
  obtain ⟨kmax, hkm⟩ := maxOf_total (l := k) (by
    rintro rfl
    rw [List.length_nil] at h2
    exact absurd h2 (Nat.mul_pos (Nat.succ_pos N) hm).ne)
  unfold plotDispersion
  rw [hl, hs2, h1]
  dsimp only
  rw [e1]
  dsimp only
  have : drawBands s k disp (colorList (.atom a) w) fill = .error .key := by
    unfold drawBands
    rw [hkm]
    exact mapM_error _ _ _ (fun i _ => Or.inr rfl) ⟨⟨0, hw⟩, by simp, rfl⟩
  rw [this]

/-- One atom for two bands. -/
example (s : Session) (a : Atom) : plotDispersion true s (fun (r : Fin ((0 + 1) * 3)) (i : Fin 2) =>
    (r.val : ℚ) + i.val) ["G", "X"] .off (.atom a) none false true = .error .key :=
  C105_atom_fails (by decide) true s 0 3 (by decide) _ ["G", "X"] rfl .off a none nofun false true
    fun _ => trivial

/-- C105: with a release of Matplotlib that has no keyword `b` of `Axes.grid`, no new figure with a
grid (the default) can be made. -/
theorem C105_grid_fails {n w : ℕ} (s : Session) (disp : Fin n → Fin w → K) (labels : List String)
    (color : ColorArg) (scales : Option (List K)) (fill : Bool) (G : DispFigure K) :
    plotDispersion false s disp labels (.axis "both") color scales fill true ≠ .ok G := by
  intro h
  unfold plotDispersion at h
  cases hx : scaleXaxis labels.length n scales with
  | error e => rw [hx] at h; cases h
  | ok kt =>
    rw [hx] at h
    dsimp only at h
    have hp : pathGrid false (.axis "both") = .error .value := by
      unfold pathGrid callGrid
      simp
    unfold newFrame bandpathSubplots at h
    rw [hp] at h
    cases hf : makeFrame kt.2 labels with
    | error e => rw [hf] at h; cases h
    | ok f => rw [hf] at h; cases h

/-- C105: a list of colours that is too short raises an `IndexError`. -/
theorem C105_colors {w : ℕ} (b : Bool) (s : Session) (N m : ℕ) (hm : 0 < m)
    (disp : Fin ((N + 1) * m) → Fin w → K) (labels : List String) (hl : labels.length = N + 2)
    (grid : GridArg) (colors : List PyVal) (hw : colors.length < w) (ss : List K)
    (hss : ss.length = N + 1) (fill newAxes : Bool) (hg : newAxes = true → GridOk b grid) :
    plotDispersion b s disp labels grid (.list (colors.map .value)) (some ss) fill newAxes =
      .error .index := by
  obtain ⟨k, ticks, h1, h2, h3, -⟩ := C75_axis_partial N m hm ss hss
  obtain ⟨r, hr, hf⟩ := makeFrame_ok (ticks := ticks) (labels := labels) (by rw [h3, hl])
    (by rintro rfl; simp at h3)
  have hframe : ∃ fr, newFrame newAxes (bandpathSubplots b ticks labels grid) = .ok fr := by
    cases newAxes with
    | false => exact ⟨none, rfl⟩
    | true =>
      refine ⟨some ⟨r, ticks, labels⟩, ?_⟩
      unfold newFrame bandpathSubplots
      rw [hf, pathGrid_ok (hg rfl)]
      rfl
  obtain ⟨fr, e1⟩ := hframe
  have hn := Nat.mul_pos (Nat.succ_pos N) hm
  obtain ⟨kmax, hkm⟩ := maxOf_total (l := k) (by
    rintro rfl
    rw [List.length_nil] at h2
    exact absurd h2 hn.ne)
  unfold plotDispersion
  rw [hl, h1]
  dsimp only
  rw [e1]
  dsimp only
  have hbad : ∀ i : Fin w, colors.length ≤ i.val →
      drawBand s k kmax disp (colorList (.list (colors.map .value)) w) fill i = .error .index := by
    intro i hi
    have : bandColor s (colorList (.list (colors.map .value)) w) i = .error .index := by
      unfold colorList bandColor
      dsimp only
      rw [List.getElem?_eq_none (by simpa using hi)]
    unfold drawBand
    rw [this]
  have : drawBands s k disp (colorList (.list (colors.map .value)) w) fill = .error .index := by
    unfold drawBands
    rw [hkm]
    refine mapM_error _ _ _ (fun i _ => ?_) ⟨⟨colors.length, hw⟩, by simp, hbad _ le_rfl⟩
    by_cases hi : i.val < colors.length
    · have hask : Asked s (.list (colors.map .value)) i colors[i.val] := by
        refine Or.inl ?_
        rw [List.getElem?_map, List.getElem?_eq_getElem hi]
        rfl
      exact Or.inl (drawBand_total h2 hn (fun a ha => by cases ha) ⟨_, hask⟩ kmax fill)
    · exact Or.inr (hbad i (by omega))
  rw [this]

/-! ## C106 -/

/-- One colour for two bands. -/
example (s : Session) : plotDispersion true s (fun (r : Fin ((0 + 1) * 3)) (i : Fin 2) =>
    (r.val : ℚ) + i.val) ["G", "X"] .off (.list [.value (.str "r")]) (some [1]) false true =
      .error .index :=
  C105_colors true s 0 3 (by decide) _ ["G", "X"] rfl .off [.str "r"] (by decide) [1] rfl false true
    fun _ => trivial

theorem dosGrid_ok {b : Bool} {grid : GridArg} (h : GridOk b grid) (hon : grid ≠ .on) :
    dosGrid b grid = .ok () := by
  cases grid with
  | off => rfl
  | axis name => exact pathGrid_ok (grid := .axis name) h
  | on => exact absurd rfl hon

/-- C106 (with the restrictions of C105, and densities of states with as many energies as values, at
most one for each band): `plot_disp_dos` draws the bands like `plot_dispersion`, and the densities of
states to the right, each in the colour of its band, the energy upwards like in the plot of the
bands. -/
theorem C106_plot_partial {w : ℕ} (b : Bool) (s : Session) (N m : ℕ) (hm : 0 < m)
    (disp : Fin ((N + 1) * m) → Fin w → K) (dosData : List (List K × List K))
    (hdos : dosData.length ≤ w) (hlen : ∀ x ∈ dosData, x.1.length = x.2.length)
    (labels : List String) (hl : labels.length = N + 2)
    (grid : GridArg) (color : ColorArg) (hc : ∀ i : Fin w, ∃ c, Asked s color i c)
    (hna : ∀ a, color ≠ .atom a) (scales : Option (List K)) (ss : List K)
    (hss : scales = some ss ∨ scales = none ∧ ss = List.replicate (N + 1) 1)
    (hsl : ss.length = N + 1) (fill newAxes : Bool)
    (hg : newAxes = true → GridOk b grid ∧ grid ≠ .on) :
    ∃ G k ticks, plotDispDos b s disp dosData labels grid color scales fill newAxes = .ok G ∧
      Drawn s color k disp fill G ∧ NewFrame newAxes ticks labels G ∧
      ticks.length = N + 2 ∧ ticks[0]? = some 0 ∧
      (∀ (i j : ℕ) (c : K), ss[i]? = some c → j < m → ∃ t, ticks[i]? = some t ∧
        k[i * m + j]? = some (t + (j : K) * c)) ∧
      (∀ i, i < N + 1 → ticks[i + 1]? = k[i * m + (m - 1)]?) ∧
      G.dos.length = dosData.length ∧
      ∀ (i : ℕ) (bins dos : List K), dosData[i]? = some (bins, dos) →
        ∃ g l, G.dos[i]? = some g ∧ G.lines[i]? = some l ∧ g.x = dos ∧ g.y = bins ∧
          g.color = l.color := by
  obtain ⟨k, ticks, h1, h2, h3, h4, h5, h6, -⟩ := C75_axis_partial N m hm ss hsl
  have hx : scaleXaxis labels.length ((N + 1) * m) scales = .ok (k, ticks) := by
    rw [hl]
    rcases hss with rfl | ⟨rfl, rfl⟩
    · exact h1
    · rw [C75_default_scales]
      exact h1
  obtain ⟨l, hd⟩ := drawBands_total (disp := disp) h2 (Nat.mul_pos (by omega) hm) hna hc fill
  obtain ⟨r, hr, hf⟩ := makeFrame_ok (ticks := ticks) (labels := labels) (by rw [h3, hl])
    (by rintro rfl; simp at h3)
  have hframe : ∃ fr, newFrame newAxes (dispDosSubplots b ticks labels grid) = .ok fr ∧
      (newAxes = true → fr = some ⟨r, ticks, labels⟩) ∧ (newAxes = false → fr = none) := by
    cases newAxes with
    | false => exact ⟨none, rfl, nofun, fun _ => rfl⟩
    | true =>
      refine ⟨some ⟨r, ticks, labels⟩, ?_, fun _ => rfl, nofun⟩
      unfold newFrame dispDosSubplots
      rw [hf, dosGrid_ok (hg rfl).1 (hg rfl).2]
      rfl
  obtain ⟨fr, e1, e2, e3⟩ := hframe
  have hdosok : ∀ x ∈ dosData.zipIdx, ∃ y, drawDos s (colorList color w) x = .ok y := by
    rintro ⟨x, i⟩ hx
    obtain ⟨hi, hxi⟩ := List.mk_mem_zipIdx_iff_getElem?.1 hx |> List.getElem?_eq_some_iff.1
    obtain ⟨c, hc⟩ := hc ⟨i, by omega⟩
    refine ⟨⟨x.2, x.1, c⟩, ?_⟩
    unfold drawDos plotLine
    rw [bandColor_ok (by omega) hc hna]
    dsimp only
    rw [if_pos (hlen x (by rw [← hxi]; exact List.getElem_mem _)).symm]
  obtain ⟨dos, hdm, -⟩ := mapM_total hdosok
  have hdrawn := drawBands_ok hd fr dos
  obtain ⟨m1, m2⟩ := mapM_inv _ _ _ hdm
  refine ⟨⟨fr, l.map Prod.fst, l.flatMap Prod.snd, dos⟩, k, ticks, ?_, hdrawn,
    ⟨fun h => ⟨r, hr, e2 h⟩, e3⟩, h3, h4, h5, h6, by rw [m1, List.length_zipIdx], ?_⟩
  · unfold plotDispDos
    rw [hx]
    dsimp only
    rw [e1]
    dsimp only
    rw [hd]
    dsimp only
    rw [hdm]
  · intro i bins ds hi
    have hiw : i < w := lt_of_lt_of_le (List.getElem?_eq_some_iff.1 hi).1 hdos
    obtain ⟨g, hg1, hg2⟩ := m2 i ((bins, ds), i) (by
      rw [List.getElem?_zipIdx, hi]
      simp)
    obtain ⟨ln, hl1, -, -, hl4⟩ := hdrawn.line ⟨i, hiw⟩
    refine ⟨g, ln, hg1, hl1, ?_⟩
    unfold drawDos at hg2
    rw [bandColor_ok hiw hl4 hna] at hg2
    dsimp only at hg2
    unfold plotLine at hg2
    split_ifs at hg2
    cases hg2
    exact ⟨rfl, rfl, rfl⟩

/-- Two bands on a path of two points, two densities of states. -/
example (s : Session) : ∃ G, plotDispDos true s (fun (r : Fin ((0 + 1) * 3)) (i : Fin 2) =>
      ((r.val : ℚ) * (i.val : ℚ))) [([0, 1], [2, 3]), ([0], [5])] ["G", "X"] (.axis "x") .none none true
      true = .ok G ∧ G.dos.length = 2 := by
  obtain ⟨G, k, t, h1, -, -, -, -, -, -, h2, -⟩ := C106_plot_partial (K := ℚ) true s 0 3 (by norm_num)
    (fun (r : Fin ((0 + 1) * 3)) (i : Fin 2) => ((r.val : ℚ) * (i.val : ℚ)))
    [([0, 1], [2, 3]), ([0], [5])] (by decide) (by decide) ["G", "X"] rfl (.axis "x") .none
    (fun _ => ⟨_, rfl⟩) nofun none [1] (Or.inr ⟨rfl, rfl⟩) rfl true true
    (fun _ => ⟨Or.inr ⟨rfl, Or.inl rfl⟩, nofun⟩)
  exact ⟨G, h1, h2⟩

/-- C106: more densities of states than bands raise an `IndexError`, also without a list of colours
or with one colour for all. -/
theorem C106_more_fails {w : ℕ} (b : Bool) (s : Session) (N m : ℕ) (hm : 0 < m)
    (disp : Fin ((N + 1) * m) → Fin w → K) (dosData : List (List K × List K))
    (hdos : w < dosData.length) (hlen : ∀ x ∈ dosData, x.1.length = x.2.length)
    (labels : List String) (hl : labels.length = N + 2)
    (grid : GridArg) (color : ColorArg) (hc : color = .none ∨ ∃ t, color = .str t)
    (ss : List K) (hsl : ss.length = N + 1) (fill newAxes : Bool)
    (hg : newAxes = true → GridOk b grid ∧ grid ≠ .on) :
    plotDispDos b s disp dosData labels grid color (some ss) fill newAxes = .error .index := by
  obtain ⟨k, ticks, h1, h2, h3, -⟩ := C75_axis_partial N m hm ss hsl
  have hna : ∀ a, color ≠ .atom a := by rcases hc with rfl | ⟨t, rfl⟩ <;> exact nofun
  have hask : ∀ i : ℕ, ∃ c, Asked s color i c := by
    rcases hc with rfl | ⟨t, rfl⟩ <;> exact fun i => ⟨_, rfl⟩
  have hbad : ∀ i, w ≤ i → bandColor s (colorList color w) i = .error .index := by
    intro i hi
    unfold colorList bandColor
    rcases hc with rfl | ⟨t, rfl⟩
    · dsimp only
      rw [List.getElem?_eq_none (by simpa using hi)]
    · dsimp only
      rw [List.getElem?_eq_none (by simpa using hi)]
  obtain ⟨l, hd⟩ := drawBands_total (disp := disp) h2 (Nat.mul_pos (by omega) hm) hna
    (fun i => hask i) fill
  obtain ⟨r, hr, hf⟩ := makeFrame_ok (ticks := ticks) (labels := labels) (by rw [h3, hl])
    (by rintro rfl; simp at h3)
  have hframe : ∃ fr, newFrame newAxes (dispDosSubplots b ticks labels grid) = .ok fr := by
    cases newAxes with
    | false => exact ⟨none, rfl⟩
    | true =>
      refine ⟨some ⟨r, ticks, labels⟩, ?_⟩
      unfold newFrame dispDosSubplots
      rw [hf, dosGrid_ok (hg rfl).1 (hg rfl).2]
      rfl
  obtain ⟨fr, e1⟩ := hframe
  have herr : dosData.zipIdx.mapM (drawDos s (colorList color w)) = .error .index := by
    refine mapM_error _ _ _ ?_ ⟨(dosData[w], w), ?_, ?_⟩
    · rintro ⟨x, i⟩ hx
      obtain ⟨hi, hxi⟩ := List.mk_mem_zipIdx_iff_getElem?.1 hx |> List.getElem?_eq_some_iff.1
      unfold drawDos plotLine
      by_cases hiw : i < w
      · obtain ⟨c, hc⟩ := hask i
        left
        refine ⟨⟨x.2, x.1, c⟩, ?_⟩
        rw [bandColor_ok hiw hc hna]
        dsimp only
        rw [if_pos (hlen x (by rw [← hxi]; exact List.getElem_mem _)).symm]
      · right
        rw [hbad i (by omega)]
    · exact List.mk_mem_zipIdx_iff_getElem?.2 (List.getElem?_eq_getElem hdos)
    · unfold drawDos
      rw [hbad w le_rfl]
  unfold plotDispDos
  rw [hl, h1]
  dsimp only
  rw [e1]
  dsimp only
  rw [hd]
  dsimp only
  rw [herr]

/-- C106: `grid=True` raises a `ValueError` (`plot_dispersion` accepts it). -/
theorem C106_grid_fails {n w : ℕ} (b : Bool) (s : Session) (disp : Fin n → Fin w → K)
    (dosData : List (List K × List K)) (labels : List String) (color : ColorArg)
    (scales : Option (List K)) (fill : Bool) (G : DispFigure K) :
    plotDispDos b s disp dosData labels .on color scales fill true ≠ .ok G := by
  intro h
  unfold plotDispDos at h
  cases hx : scaleXaxis labels.length n scales with
  | error e => rw [hx] at h; cases h
  | ok kt =>
    rw [hx] at h
    dsimp only at h
    unfold newFrame dispDosSubplots at h
    cases hf : makeFrame kt.2 labels with
    | error e => rw [hf] at h; cases h
    | ok f => rw [hf] at h; cases h

end

/-! ## C107 -/

section
variable {K : Type*} [Field K] [LinearOrder K] [IsStrictOrderedRing K]

/-- C107 in one dimension: each band is drawn over the wave vectors, the plot ends at the smallest and
the largest of them. -/
theorem C107_line (k : List K) (hk : k ≠ []) (rest : List (List K)) (nb : ℕ)
    (f : Fin nb → Fin k.length → K) (label : String) (bz : Option (List K)) :
    ∃ a b l, plotBands (k :: rest) (.line nb k.length f) label bz = .ok (.lines a b l (bz.getD [])) ∧
      IsLeast {x | x ∈ k} a ∧ IsGreatest {x | x ∈ k} b ∧ l.length = nb ∧
      ∀ i : Fin nb, l[i.val]? = some (k, List.ofFn (f i)) := by
  obtain ⟨a, ha⟩ := minOf_total hk
  obtain ⟨b, hb⟩ := maxOf_total hk
  refine ⟨a, b, (List.finRange nb).map fun i => (k, List.ofFn (f i)), ?_, minOf_ok ha, maxOf_ok hb,
    by simp, fun i => by simp⟩
  unfold plotBands
  dsimp only
  rw [if_pos rfl, ha, hb]

/-- Two bands over three wave vectors. -/
example : ∃ l : List (List ℚ × List ℚ), plotBands [[-1, 0, (1 : ℚ)]] (.line 2 3 fun i j => (i.val : ℚ) - j.val) "E"
    (some [-1, 1]) = .ok (.lines (-1) 1 l [-1, 1]) ∧
    l[1]? = some ([-1, 0, (1 : ℚ)], [1, 0, (-1 : ℚ)]) := by
  obtain ⟨a, b, l, h1, h2, h3, -, h4⟩ := C107_line (K := ℚ) [-1, 0, 1] (by simp) [] 2
    (fun i j => (i.val : ℚ) - j.val) "E" (some [-1, 1])
  have ha : a = -1 := h2.unique ⟨by simp, fun x hx => by
    have : x = -1 ∨ x = 0 ∨ x = 1 := by simpa using hx
    rcases this with rfl | rfl | rfl <;> norm_num⟩
  have hb : b = 1 := h3.unique ⟨by simp, fun x hx => by
    have : x = -1 ∨ x = 0 ∨ x = 1 := by simpa using hx
    rcases this with rfl | rfl | rfl <;> norm_num⟩
  subst ha hb
  refine ⟨l, h1, (h4 1).trans ?_⟩
  norm_num [List.ofFn_succ]

/-- C107 in two dimensions, for two or more wave vectors along both axes: the colour at `(kx, ky)` is
the energy of a single band, or the sum of the absolute values of the energies of all bands; the first
index of the table of energies belongs to `ky`. -/
theorem C107_plane (kx ky : List K) (hx : 2 ≤ kx.length) (hy : 2 ≤ ky.length) (nb : ℕ)
    (f : Fin nb → Fin ky.length → Fin kx.length → K) (label : String) (bz : Option (List K)) :
    ∃ v lab, plotBands [kx, ky] (.plane nb ky.length kx.length f) label bz =
        .ok (.contour kx ky v lab) ∧
      (∀ h : nb = 1, ∀ r c, v r.val c.val = f ⟨0, by omega⟩ r c) ∧
      (nb ≠ 1 → ∀ (r : Fin ky.length) (c : Fin kx.length), v r.val c.val = ∑ i, |f i r c|) ∧
      (lab = none ↔ label = "") := by
  refine ⟨_, _, by unfold plotBands; dsimp only; exact if_pos ⟨rfl, rfl, hy, hx⟩, ?_, ?_, ?_⟩
  · intro h r c
    rw [dif_pos ⟨r.2, c.2⟩, dif_pos h]
  · intro h r c
    rw [dif_pos ⟨r.2, c.2⟩, dif_neg h, ← List.ofFn_eq_map, List.sum_ofFn]
    rfl
  · by_cases hl : label = "" <;> simp [hl]

/-- C107: the errors.  No wave vectors, tables that do not fit, less than two wave vectors along an
axis of a plane, other dimensions. -/
theorem C107_errors (kgrid : List (List K)) (label : String) (bz : Option (List K)) :
    (∀ nb n (f : Fin nb → Fin n → K), (kgrid = [] → plotBands kgrid (.line nb n f) label bz =
        .error .index) ∧
      (∀ k rest, kgrid = k :: rest → k.length ≠ n ∨ n = 0 → plotBands kgrid (.line nb n f) label bz =
        .error .value)) ∧
    (∀ nb r c (f : Fin nb → Fin r → Fin c → K), (kgrid.length ≠ 2 →
        plotBands kgrid (.plane nb r c f) label bz = .error .value) ∧
      (∀ kx ky, kgrid = [kx, ky] → kx.length ≠ c ∨ ky.length ≠ r ∨ r < 2 ∨ c < 2 →
        plotBands kgrid (.plane nb r c f) label bz = .error .type)) ∧
    ∀ dim, plotBands kgrid (.other dim) label bz = .error .notImplemented := by
  refine ⟨fun nb n f => ⟨?_, ?_⟩, fun nb r c f => ⟨?_, ?_⟩, fun _ => rfl⟩
  · rintro rfl
    rfl
  · rintro k rest rfl h
    unfold plotBands
    dsimp only
    by_cases hk : k.length = n
    · have : k = [] := by
        rcases h with h | h
        · exact absurd hk h
        · exact List.length_eq_zero_iff.1 (by omega)
      subst this
      rw [if_pos hk]
      rfl
    · rw [if_neg hk]
  · intro h
    unfold plotBands
    match kgrid, h with
    | [], _ => rfl
    | [_], _ => rfl
    | [_, _], h => exact absurd rfl h
    | _ :: _ :: _ :: _, _ => rfl
  · rintro kx ky rfl h
    unfold plotBands
    dsimp only
    rw [if_neg]
    rintro ⟨h1, h2, h3, h4⟩
    omega

omit [IsStrictOrderedRing K] in
/-- C107: the colour bar of a single band in two dimensions is labelled with the absolute value,
although the energies themselves are shown: the number of bands is read after the array was replaced
by the table of the only band. -/
theorem C107_label_fails (kgrid : List (List K)) (rows cols : ℕ)
    (f : Fin 1 → Fin rows → Fin cols → K) (label : String) (hl : label ≠ "")
    (bz : Option (List K)) {kx ky : List K} {v : ℕ → ℕ → K} {lab : Option String}
    (h : plotBands kgrid (.plane 1 rows cols f) label bz = .ok (.contour kx ky v lab)) :
    lab = some ("|" ++ label ++ "|") ∧ ∀ r c, v r.val c.val = f 0 r c := by
  unfold plotBands at h
  match kgrid, h with
  | [], h => cases h
  | [_], h => cases h
  | _ :: _ :: _ :: _, h => cases h
  | [a, b], h =>
    dsimp only at h
    by_cases hc : b.length = rows ∧ a.length = cols ∧ 2 ≤ rows ∧ 2 ≤ cols
    · rw [if_pos hc] at h
      cases h
      refine ⟨by rw [if_neg hl, if_neg (by omega)], fun r c => ?_⟩
      dsimp only
      rw [dif_pos ⟨r.2, c.2⟩]
      rfl
    · rw [if_neg hc] at h
      cases h

/-- A single band on two by three wave vectors. -/
example : ∃ v lab, plotBands [[0, 1, 2], [0, (1 : ℚ)]]
    (.plane 1 2 3 fun _ r c => (r.val : ℚ) - c.val) "E" none = .ok (.contour [0, 1, 2] [0, 1] v lab) ∧
    v 0 2 = -2 ∧ lab = some "|E|" := by
  obtain ⟨v, lab, h, h1, -, -⟩ := C107_plane (K := ℚ) [0, 1, 2] [0, 1] (by decide) (by decide) 1
    (fun _ r c => (r.val : ℚ) - c.val) "E" none
  refine ⟨v, lab, h, ?_, (C107_label_fails _ _ _ _ "E" (by decide) none h).1⟩
  have := h1 rfl (0 : Fin 2) (2 : Fin 3)
  exact this.trans (by norm_num)

end

end DispPlot

/-! ## paths -/

namespace DispPath
open DispPlot

/-- C105 for a path whose points have its dimension and whose first two points differ: a dispersion
with a row for each wave vector of the built path can be plotted; the labels of the path are at the
ticks, whose distances are the lengths of the sections relative to the first one, times `n - 1`. -/
theorem C105_path_partial {w : ℕ} (b : Bool) (s : Session) (P : DispPath ℝ)
    (hP : ∀ p ∈ P.points, p.length = P.dim) (hlab : P.labels.length = P.numPoints) (p q : List ℝ)
    (hp : P.points[0]? = some p) (hq : P.points[1]? = some q) (hpq : euclid p q ≠ 0) (n : ℕ)
    (hn : 0 < n) {path : List (List ℝ)} (hb : (P.build n).2 = .ok path)
    (disp : Fin path.length → Fin w → ℝ) (grid : GridArg) (hg : GridOk b grid) (color : ColorArg)
    (hc : ∀ i : Fin w, ∃ c, Asked s color i c) (hna : ∀ a, color ≠ .atom a) (fill : Bool) :
    ∃ G k fr, (P.build n).1.plotDispersion b s disp grid color fill true = .ok (some G) ∧
      Drawn s color k disp fill G ∧ G.frame = some fr ∧ fr.labels = P.labels ∧
      fr.ticks.length = P.numPoints ∧ fr.ticks.getLast? = some fr.right ∧ fr.ticks[0]? = some 0 ∧
      ∀ (i : ℕ) (x y : List ℝ), P.points[i]? = some x → P.points[i + 1]? = some y →
        ∃ t t', fr.ticks[i]? = some t ∧ fr.ticks[i + 1]? = some t' ∧
          t' - t = ((n : ℝ) - 1) * (euclid x y / euclid p q) := by
  obtain ⟨path', hb', hlen, -, -⟩ := C73_build_partial P n hP
  rw [hb] at hb'
  cases hb'
  obtain ⟨ss, hs, hsl, hpos, hval⟩ := C75_scales_partial P hP p q hp hq hpq
  have hN : 2 ≤ P.numPoints := by
    unfold numPoints
    by_contra hc
    rw [List.getElem?_eq_none (by omega)] at hq
    exact absurd hq (by simp)
  obtain ⟨N, hN'⟩ : ∃ N, P.numPoints = N + 2 := ⟨P.numPoints - 2, by omega⟩
  rw [hN'] at hlen hsl
  have hlen' : path.length = (N + 1) * n := hlen
  clear hlen hb
  revert disp
  rw [hlen']
  intro disp
  obtain ⟨G, k, ticks, h1, h2, -, h4, h5, h6, h7, h8⟩ := C105_plot_partial b s N n hn disp P.labels
    (by rw [hlab, hN']) grid color hc hna (some ss) ss (Or.inl rfl) hsl fill true fun _ => hg
  obtain ⟨r, hr, hf⟩ := h4.1 rfl
  refine ⟨G, k, ⟨r, ticks, P.labels⟩, ?_, h2, hf, rfl, by rw [hN']; exact h5, hr, h6, ?_⟩
  · have hsc : (P.build n).1.scales = P.scales := rfl
    have hla : (P.build n).1.labels = P.labels := rfl
    unfold DispPath.plotDispersion
    rw [hsc, hs]
    dsimp only
    rw [hla, h1]
  · intro i x y hx hy
    have hsi := hval i x y hx hy
    have hi : i < N + 1 := by
      by_contra hc
      rw [List.getElem?_eq_none (by rw [hsl]; omega)] at hsi
      exact absurd hsi (by simp)
    obtain ⟨t, ht1, ht2⟩ := h7 i (n - 1) _ hsi (by omega)
    refine ⟨t, _, ht1, (h8 i hi).trans ht2, ?_⟩
    rw [Nat.cast_sub hn, Nat.cast_one]
    ring

/-- C106 for a path as in `C105_path_partial`: a dispersion with a row for each wave vector of the
built path can be plotted together with its densities of states; the labels of the path are at the
ticks, whose distances are the lengths of the sections relative to the first one, times `n - 1`. -/
theorem C106_path_partial {w : ℕ} (b : Bool) (s : Session) (P : DispPath ℝ)
    (hP : ∀ p ∈ P.points, p.length = P.dim) (hlab : P.labels.length = P.numPoints) (p q : List ℝ)
    (hp : P.points[0]? = some p) (hq : P.points[1]? = some q) (hpq : euclid p q ≠ 0) (n : ℕ)
    (hn : 0 < n) {path : List (List ℝ)} (hb : (P.build n).2 = .ok path)
    (disp : Fin path.length → Fin w → ℝ) (dosData : List (List ℝ × List ℝ))
    (hdos : dosData.length ≤ w) (hdl : ∀ x ∈ dosData, x.1.length = x.2.length) (grid : GridArg)
    (hg : GridOk b grid) (hon : grid ≠ .on) (color : ColorArg)
    (hc : ∀ i : Fin w, ∃ c, Asked s color i c) (hna : ∀ a, color ≠ .atom a) (fill : Bool) :
    ∃ G k fr, (P.build n).1.plotDispDos b s disp dosData grid color fill true = .ok (some G) ∧
      Drawn s color k disp fill G ∧ G.frame = some fr ∧ fr.labels = P.labels ∧
      fr.ticks.length = P.numPoints ∧ fr.ticks.getLast? = some fr.right ∧ fr.ticks[0]? = some 0 ∧
      (∀ (i : ℕ) (bins dos : List ℝ), dosData[i]? = some (bins, dos) →
        ∃ g l, G.dos[i]? = some g ∧ G.lines[i]? = some l ∧ g.x = dos ∧ g.y = bins ∧
          g.color = l.color) ∧
      ∀ (i : ℕ) (x y : List ℝ), P.points[i]? = some x → P.points[i + 1]? = some y →
        ∃ t t', fr.ticks[i]? = some t ∧ fr.ticks[i + 1]? = some t' ∧
          t' - t = ((n : ℝ) - 1) * (euclid x y / euclid p q) := by
  obtain ⟨path', hb', hlen, -, -⟩ := C73_build_partial P n hP
  rw [hb] at hb'
  cases hb'
  obtain ⟨ss, hs, hsl, hpos, hval⟩ := C75_scales_partial P hP p q hp hq hpq
  have hN : 2 ≤ P.numPoints := by
    unfold numPoints
    by_contra hc
    rw [List.getElem?_eq_none (by omega)] at hq
    exact absurd hq (by simp)
  obtain ⟨N, hN'⟩ : ∃ N, P.numPoints = N + 2 := ⟨P.numPoints - 2, by omega⟩
  rw [hN'] at hlen hsl
  have hlen' : path.length = (N + 1) * n := hlen
  clear hlen hb
  revert disp
  rw [hlen']
  intro disp
  obtain ⟨G, k, ticks, h1, h2, h4, h5, h6, h7, h8, -, h9⟩ := C106_plot_partial b s N n hn disp dosData
    hdos hdl P.labels (by rw [hlab, hN']) grid color hc hna (some ss) ss (Or.inl rfl) hsl fill true fun _ => ⟨hg, hon⟩
  obtain ⟨r, hr, hf⟩ := h4.1 rfl
  refine ⟨G, k, ⟨r, ticks, P.labels⟩, ?_, h2, hf, rfl, by rw [hN']; exact h5, hr, h6, h9, ?_⟩
  · have hsc : (P.build n).1.scales = P.scales := rfl
    have hla : (P.build n).1.labels = P.labels := rfl
    unfold DispPath.plotDispDos
    rw [hsc, hs]
    dsimp only
    rw [hla, h1]
  · intro i x y hx hy
    have hsi := hval i x y hx hy
    have hi : i < N + 1 := by
      by_contra hc
      rw [List.getElem?_eq_none (by rw [hsl]; omega)] at hsi
      exact absurd hsi (by simp)
    obtain ⟨t, ht1, ht2⟩ := h7 i (n - 1) _ hsi (by omega)
    refine ⟨t, _, ht1, (h8 i hi).trans ht2, ?_⟩
    rw [Nat.cast_sub hn, Nat.cast_one]
    ring

/-- C105: the axes made by `path.subplots()` do not fit the plot of a dispersion: their second tick is
at `n`, but the second point of the path is drawn at `n - 1` (`n` wave vectors per section). -/
theorem C105_subplots_fails {w : ℕ} (hw : 0 < w) (b : Bool) (s : Session) (P : DispPath ℝ)
    (hP : ∀ p ∈ P.points, p.length = P.dim) (hlab : P.labels.length = P.numPoints) (p q : List ℝ)
    (hp : P.points[0]? = some p) (hq : P.points[1]? = some q) (hpq : euclid p q ≠ 0) (n : ℕ)
    (hn : 2 ≤ n) {path : List (List ℝ)} (hb : (P.build n).2 = .ok path)
    (disp : Fin path.length → Fin w → ℝ) (grid : GridArg) (hg : GridOk b grid) :
    ∃ fr G l, (P.build n).1.subplots b grid = .ok fr ∧ fr.ticks[1]? = some (n : ℝ) ∧
      (P.build n).1.plotDispersion b s disp grid .none false false = .ok (some G) ∧
      G.lines[0]? = some l ∧ path[n - 1]? = some q ∧ l.x[n - 1]? = some ((n : ℝ) - 1) := by
  obtain ⟨path', hb', hlen, -, hrow⟩ := C73_build_partial P n hP
  rw [hb] at hb'
  cases hb'
  obtain ⟨ss, hs, hsl, hpos, hval⟩ := C75_scales_partial P hP p q hp hq hpq
  have hN : 2 ≤ P.numPoints := by
    unfold numPoints
    by_contra hc
    rw [List.getElem?_eq_none (by omega)] at hq
    exact absurd hq (by simp)
  obtain ⟨N, hN'⟩ : ∃ N, P.numPoints = N + 2 := ⟨P.numPoints - 2, by omega⟩
  rw [hN'] at hlen hsl
  have hlen' : path.length = (N + 1) * n := hlen
  have hend : path[n - 1]? = some q := by
    obtain ⟨row, h1, -, -, h2⟩ := hrow 0 (n - 1) p q hp hq (by omega)
    rw [Nat.zero_mul, Nat.zero_add] at h1
    rw [h1, h2 hn rfl]
  rw [hend]
  clear hlen hb hrow hend
  revert disp
  rw [hlen']
  intro disp
  obtain ⟨G, k, ticks, h1, h2, -, -, -, h6, h7, -⟩ := C105_plot_partial b s N n (by omega) disp
    P.labels (by rw [hlab, hN']) grid .none (fun _ => ⟨_, rfl⟩) nofun (some ss) ss (Or.inl rfl) hsl
    false false nofun
  obtain ⟨l, hl, hx, -⟩ := h2.line ⟨0, hw⟩
  have htl : ((P.build n).1.getTicks.1.map fun t : ℕ => (t : ℝ)).length = P.labels.length := by
    rw [hlab]
    simp [getTicks]
    rfl
  obtain ⟨r, -, hf⟩ := makeFrame_ok htl (by
    intro h
    have := congrArg List.length h
    rw [htl, hlab, hN'] at this
    simp at this)
  have hfr : ∃ fr, subplots b (P.build n).1 grid = .ok fr ∧
      fr.ticks = (P.build n).1.getTicks.1.map fun t : ℕ => (t : ℝ) := by
    have hla : (P.build n).1.getTicks.2 = P.labels := rfl
    unfold subplots bandpathSubplots
    rw [hla, hf, pathGrid_ok hg]
    exact ⟨_, rfl, rfl⟩
  obtain ⟨fr, hf1, hf2⟩ := hfr
  refine ⟨fr, G, l, hf1, ?_, ?_, hl, rfl, ?_⟩
  · have hpt : (P.build n).1.numPoints = N + 2 := hN'
    have hns : (P.build n).1.nSect = n := rfl
    rw [hf2]
    dsimp only [getTicks]
    rw [List.map_map, List.getElem?_map, hpt, List.getElem?_range (by omega)]
    simp [hns]
  · have hsc : (P.build n).1.scales = P.scales := rfl
    have hla : (P.build n).1.labels = P.labels := rfl
    unfold DispPath.plotDispersion
    rw [hsc, hs]
    dsimp only
    rw [hla, h1]
  · rw [hx]
    obtain ⟨t, ht1, ht2⟩ := h7 0 (n - 1) _ (hval 0 p q hp hq) (by omega)
    rw [h6] at ht1
    cases ht1
    rw [Nat.zero_mul, Nat.zero_add] at ht2
    rw [ht2, div_self hpq, Nat.cast_sub (by omega)]
    simp

/-- The path from (0, 0) to (3, 4) and back. -/
example (s : Session) : ∃ (P : DispPath ℝ) (path : List (List ℝ)), P.labels.length = P.numPoints ∧
    (P.build 3).2 = .ok path ∧ ∀ disp : Fin path.length → Fin 1 → ℝ, ∃ G,
      (P.build 3).1.plotDispersion true s disp .on .none false true = .ok (some G) ∧
      ∃ fr, G.frame = some fr ∧ fr.labels = ["G", "X", "G"] := by
  let P : DispPath ℝ :=
    { dim := 2, labels := ["G", "X", "G"], points := [[0, 0], [3, 4], [0, 0]], nSect := 0 }
  have hP : ∀ p ∈ P.points, p.length = P.dim := by simp [P]
  obtain ⟨path, hb, -⟩ := C73_build_partial P 3 hP
  refine ⟨P, path, rfl, hb, fun disp => ?_⟩
  have hpq : euclid [(0 : ℝ), 0] [3, 4] ≠ 0 := by
    unfold euclid
    have : (List.zipWith (fun x y => (x - y) ^ 2) [(0 : ℝ), 0] [3, 4]).sum = 25 := by norm_num
    rw [this]
    exact (Real.sqrt_pos.2 (by norm_num)).ne'
  obtain ⟨G, k, fr, h1, -, h2, h3, -⟩ := C105_path_partial true s P hP rfl [0, 0] [3, 4] rfl rfl hpq 3
    (by norm_num) hb disp .on rfl .none (fun _ => ⟨_, rfl⟩) nofun false
  exact ⟨G, h1, fr, h2, h3⟩

/-- The first section of the path of the example above with three wave vectors: its end is drawn at 2,
the second tick is at 3. -/
example (s : Session) : ∃ (P : DispPath ℝ) (path : List (List ℝ)), (P.build 3).2 = .ok path ∧
    ∀ disp : Fin path.length → Fin 1 → ℝ, ∃ fr G l, (P.build 3).1.subplots true .on = .ok fr ∧
      fr.ticks[1]? = some 3 ∧
      (P.build 3).1.plotDispersion true s disp .on .none false false = .ok (some G) ∧
      G.lines[0]? = some l ∧ path[2]? = some [3, 4] ∧ l.x[2]? = some 2 := by
  let P : DispPath ℝ :=
    { dim := 2, labels := ["G", "X", "G"], points := [[0, 0], [3, 4], [0, 0]], nSect := 0 }
  have hP : ∀ p ∈ P.points, p.length = P.dim := by simp [P]
  obtain ⟨path, hb, -⟩ := C73_build_partial P 3 hP
  refine ⟨P, path, hb, fun disp => ?_⟩
  have hpq : euclid [(0 : ℝ), 0] [3, 4] ≠ 0 := by
    unfold euclid
    have : (List.zipWith (fun x y => (x - y) ^ 2) [(0 : ℝ), 0] [3, 4]).sum = 25 := by norm_num
    rw [this]
    exact (Real.sqrt_pos.2 (by norm_num)).ne'
  obtain ⟨fr, G, l, h1, h2, h3, h4, h5, h6⟩ := C105_subplots_fails (by decide) true s P hP rfl [0, 0]
    [3, 4] rfl rfl hpq 3 (by decide) hb disp .on rfl
  exact ⟨fr, G, l, h1, by rw [h2]; norm_num, h3, h4, h5, h6.trans (by norm_num)⟩

end DispPath
end Lattpy
