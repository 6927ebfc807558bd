import Verif.Mesh.Model1d
import Mathlib.Tactic.Linarith
import Mathlib.Tactic.Ring
import Mathlib.Tactic.FieldSimp
import Mathlib.Data.Real.Archimedean
import Mathlib.Data.List.Chain

/-!
# C32: the points between two mesh lines
-/

namespace Verif.Mesh
open Classical

theorem tol_pos : 0 < tol := by unfold tol; norm_num

/-! ### Specification -/

/-- The request can be met: there is room for both spacings. -/
def Room (xl xh sl sh : ℝ) : Prop := sl + sh ≤ xh - xl

/-- What is promised about two neighbouring points `u`, `v` between two lines at `xl`, `xh`, with spacing `sl` requested
after `xl` and `sh` before `xh` (up to the tolerance of the code).  If there is no room the only promise is
`sl + sh + tol`. -/
structure GapOK (xl xh sl sh u v : ℝ) : Prop where
  lt : u < v
  low : xl ≤ u
  high : v ≤ xh
  any : v - u < sl + sh + tol
  max : Room xl xh sl sh → v - u < max sl sh + tol
  first : Room xl xh sl sh → u = xl → v - u < sl + tol
  last : Room xl xh sl sh → v = xh → v - u < sh + tol * sh + tol

/-! ### Equidistant points -/

theorem equiLoop_spec {xl xh sl : ℝ} (hs : 0 < sl) : ∀ (fuel : Nat) (x : ℝ) (l : List ℝ), xl ≤ x → x ≤ xh →
    equiLoop xh sl fuel x = some l →
    List.IsChain (fun u v => u < v ∧ xl ≤ u ∧ v ≤ xh ∧ v - u < sl + tol) (x :: l) ∧ (x :: l).getLast (by simp) = xh := by
  intro fuel
  induction fuel with
  | zero => intro x l _ _ h; simp [equiLoop] at h
  | succ fuel ih =>
    intro x l hl hx h
    have ht := tol_pos
    rw [equiLoop] at h
    split at h
    · rename_i hlt
      dsimp only at h
      rw [Option.map_eq_some_iff] at h
      obtain ⟨t, h1, rfl⟩ := h
      obtain ⟨y, hy⟩ : ∃ y, y = if x + sl > xh - tol then xh else x + sl := ⟨_, rfl⟩
      rw [← hy] at h1 ⊢
      have hyx : x < y ∧ y ≤ xh ∧ y - x < sl + tol := by
        split at hy
        · rename_i hc; subst hy; exact ⟨hlt, le_refl _, by linarith⟩
        · rename_i hc
          subst hy
          rw [gt_iff_lt, not_lt] at hc
          exact ⟨by linarith, by linarith, by linarith⟩
      obtain ⟨h2, h3⟩ := ih y t (by linarith [hyx.1]) hyx.2.1 h1
      refine ⟨List.isChain_cons_cons.2 ⟨⟨hyx.1, hl, hyx.2.1, hyx.2.2⟩, h2⟩, ?_⟩
      rw [List.getLast_cons (by simp)]
      exact h3
    · rename_i hn
      simp only [Option.some.injEq] at h
      subst h
      refine ⟨List.isChain_singleton _, ?_⟩
      simp only [List.getLast_singleton]
      linarith

theorem equiLoop_terminates {xh sl : ℝ} (hs : 0 < sl) : ∀ (n : Nat) (x : ℝ), xh - x ≤ n * sl →
    ∃ l, ∀ fuel, n + 2 ≤ fuel → equiLoop xh sl fuel x = some l := by
  intro n
  induction n with
  | zero =>
    intro x hx
    refine ⟨[], fun fuel hf => ?_⟩
    obtain ⟨k, rfl⟩ : ∃ k, fuel = k + 1 := ⟨fuel - 1, by omega⟩
    rw [equiLoop, if_neg]
    simp at hx
    linarith
  | succ n ih =>
    intro x hx
    by_cases hlt : x < xh
    · obtain ⟨y, hy⟩ : ∃ y, y = if x + sl > xh - tol then xh else x + sl := ⟨_, rfl⟩
      have : xh - y ≤ n * sl := by
        push_cast at hx
        rw [hy]
        split
        · have : 0 ≤ (n : ℝ) * sl := by positivity
          linarith
        · linarith
      obtain ⟨l, hl⟩ := ih y this
      refine ⟨y :: l, fun fuel hf => ?_⟩
      obtain ⟨k, rfl⟩ : ∃ k, fuel = k + 1 := ⟨fuel - 1, by omega⟩
      rw [equiLoop, if_pos hlt]
      dsimp only
      rw [← hy, hl k (by omega)]
      rfl
    · refine ⟨[], fun fuel hf => ?_⟩
      obtain ⟨k, rfl⟩ : ∃ k, fuel = k + 1 := ⟨fuel - 1, by omega⟩
      rw [equiLoop, if_neg hlt]

/-! ### Growing or shrinking spacing -/

/-- The situation in which `variable` is called. -/
structure Var (xl xh sl sh r : ℝ) : Prop where
  slpos : 0 < sl
  shpos : 0 < sh
  room : Room xl xh sl sh
  ratio : r * (xh - xl - sh) = xh - xl - sl

theorem Var.rpos {xl xh sl sh r : ℝ} (h : Var xl xh sl sh r) : 0 < r := by
  have h1 := h.slpos; have h2 := h.shpos; have h3 := h.room; unfold Room at h3
  by_contra hc
  rw [not_lt] at hc
  have : r * (xh - xl - sh) ≤ 0 := mul_nonpos_of_nonpos_of_nonneg hc (by linarith)
  rw [h.ratio] at this
  linarith

/-- `sl r^i` is an affine function of the position. -/
def OnTrack (xl sl r : ℝ) (i : Nat) (x : ℝ) : Prop := sl * r ^ i = sl + (r - 1) * (x - xl)

theorem OnTrack.next {xl sl r : ℝ} {i : Nat} {x : ℝ} (h : OnTrack xl sl r i x) :
    OnTrack xl sl r (i + 1) (x + sl * r ^ i) := by
  unfold OnTrack at *
  have : sl * r ^ (i + 1) = r * (sl * r ^ i) := by ring
  rw [this]
  have e : sl + (r - 1) * (x + sl * r ^ i - xl) = (sl + (r - 1) * (x - xl)) + (r - 1) * (sl * r ^ i) := by ring
  rw [e, ← h]; ring

theorem Var.rle {xl xh sl sh r : ℝ} (h : Var xl xh sl sh r) {i : Nat} (hr : r ≤ 1) : sl * r ^ i ≤ sl := by
  have := pow_le_one₀ (n := i) h.rpos.le hr
  have h1 := h.slpos
  nlinarith

theorem varLoop_spec {xl xh sl sh r : ℝ} (hv : Var xl xh sl sh r) : ∀ (fuel i : Nat) (x : ℝ) (l : List ℝ),
    (x < xh → OnTrack xl sl r i x) → xl ≤ x → x ≤ xh → (x = xl → i = 0) →
    varLoop xh sl sh r fuel i x = some l →
    List.IsChain (fun u v => u < v ∧ xl ≤ u ∧ v ≤ xh ∧ v - u < max sl sh + tol ∧ (u = xl → v - u < sl + tol) ∧
      (v = xh → v - u ≤ sh)) (x :: l) ∧ (x :: l).getLast (by simp) = xh := by
  intro fuel
  induction fuel with
  | zero => intro i x l _ _ _ _ h; simp [varLoop] at h
  | succ fuel ih =>
    intro i x l htr hl hx hi h
    have ht := tol_pos
    have h1 := hv.slpos
    have h2 := hv.shpos
    have h3 : sl + sh ≤ xh - xl := hv.room
    have hr := hv.rpos
    have hm1 := le_max_left sl sh
    have hm2 := le_max_right sl sh
    have hgp : 0 < sl * r ^ i := by positivity
    rw [varLoop] at h
    split at h
    · rename_i hlt
      have htr := htr hlt
      dsimp only at h
      split at h
      · rename_i hj
        rw [gt_iff_lt] at hj
        rw [Option.map_eq_some_iff] at h
        obtain ⟨t, g1, rfl⟩ := h
        obtain ⟨g2, g3⟩ := ih (i + 1) xh t (fun h => absurd h (lt_irrefl _)) (by linarith) (le_refl _)
          (fun h => by linarith) g1
        split
        · rename_i hins
          have hgap : xh - sh - x < max sl sh + tol := by
            by_cases hr1 : r ≤ 1
            · have := hv.rle (i := i) hr1
              linarith
            · rw [not_le] at hr1
              unfold OnTrack at htr
              have e : r * (xh - xl - sh) - r * (x - xl) < tol := by
                rw [hv.ratio]; nlinarith
              have : r * (xh - sh - x) < tol := by nlinarith
              have : xh - sh - x < tol := by nlinarith
              linarith
          refine ⟨?_, ?_⟩
          · simp only [List.cons_append, List.nil_append]
            refine List.isChain_cons_cons.2 ⟨⟨hins, hl, by linarith, hgap, fun hu => ?_, fun hv' => by linarith⟩,
              List.isChain_cons_cons.2 ⟨⟨by linarith, by linarith, le_refl _, by linarith, fun hu => by linarith,
                fun _ => by linarith⟩, g2⟩⟩
            have hi0 := hi hu
            subst hi0
            simp only [pow_zero, mul_one] at hj
            linarith
          · simp only [List.cons_append, List.nil_append]
            rw [List.getLast_cons (by simp), List.getLast_cons (by simp)]
            exact g3
        · rename_i hins
          rw [not_lt] at hins
          refine ⟨?_, ?_⟩
          · simp only [List.nil_append]
            exact List.isChain_cons_cons.2 ⟨⟨hlt, hl, le_refl _, by linarith, fun hu => by linarith,
              fun _ => by linarith⟩, g2⟩
          · simp only [List.nil_append]
            rw [List.getLast_cons (by simp)]
            exact g3
      · rename_i hj
        rw [gt_iff_lt, not_lt] at hj
        rw [Option.map_eq_some_iff] at h
        obtain ⟨t, g1, rfl⟩ := h
        obtain ⟨g2, g3⟩ := ih (i + 1) (x + sl * r ^ i) t (fun _ => htr.next) (by linarith) (by linarith)
          (fun h => by linarith) g1
        have hgap : sl * r ^ i ≤ max sl sh := by
          by_cases hr1 : r ≤ 1
          · exact (hv.rle hr1).trans hm1
          · rw [not_le] at hr1
            have hn := htr.next
            unfold OnTrack at hn
            have e1 : r * (sl * r ^ i) ≤ sl + (r - 1) * (xh - xl) := by
              have : r * (sl * r ^ i) = sl * r ^ (i + 1) := by ring
              rw [this, hn]
              have : (r - 1) * (x + sl * r ^ i - xl) ≤ (r - 1) * (xh - xl) :=
                mul_le_mul_of_nonneg_left (by linarith) (by linarith)
              linarith
            have e2 : sl + (r - 1) * (xh - xl) = r * sh := by
              have := hv.ratio
              linarith [mul_comm r sh]
            rw [e2] at e1
            exact (le_of_mul_le_mul_left e1 hr).trans hm2
        refine ⟨List.isChain_cons_cons.2 ⟨⟨by linarith, hl, by linarith, by linarith, fun hu => ?_,
          fun hv' => by linarith⟩, g2⟩, ?_⟩
        · have hi0 := hi hu
          subst hi0
          simp only [pow_zero, mul_one]
          linarith
        · rw [List.getLast_cons (by simp)]
          exact g3
    · rename_i hn
      simp only [Option.some.injEq] at h
      subst h
      refine ⟨List.isChain_singleton _, ?_⟩
      simp only [List.getLast_singleton]
      linarith

/-- The steps do not become arbitrarily small. -/
theorem step_ge {xl xh sl sh r : ℝ} (hv : Var xl xh sl sh r) {i : Nat} {x : ℝ} (htr : OnTrack xl sl r i x) (hl : xl ≤ x)
    (hx : x < xh) : min sl (r * sh) ≤ sl * r ^ i := by
  unfold OnTrack at htr
  rw [htr]
  by_cases hr1 : r ≤ 1
  · have e2 : sl + (r - 1) * (xh - xl) = r * sh := by
      have := hv.ratio
      linarith [mul_comm r sh]
    have : (r - 1) * (xh - xl) ≤ (r - 1) * (x - xl) := mul_le_mul_of_nonpos_left (by linarith) (by linarith)
    exact (min_le_right _ _).trans (by linarith)
  · rw [not_le] at hr1
    have : 0 ≤ (r - 1) * (x - xl) := mul_nonneg (by linarith) (by linarith)
    exact (min_le_left _ _).trans (by linarith)

theorem varLoop_terminates {xl xh sl sh r : ℝ} (hv : Var xl xh sl sh r) : ∀ (n i : Nat) (x : ℝ),
    (x < xh → OnTrack xl sl r i x) → xl ≤ x → xh - x ≤ n * min sl (r * sh) →
    ∃ l, ∀ fuel, n + 2 ≤ fuel → varLoop xh sl sh r fuel i x = some l := by
  have hd : 0 < min sl (r * sh) := lt_min hv.slpos (mul_pos hv.rpos hv.shpos)
  intro n
  induction n with
  | zero =>
    intro i x _ _ hx
    refine ⟨[], fun fuel hf => ?_⟩
    obtain ⟨k, rfl⟩ : ∃ k, fuel = k + 1 := ⟨fuel - 1, by omega⟩
    rw [varLoop, if_neg]
    simp only [Nat.cast_zero, zero_mul] at hx
    linarith
  | succ n ih =>
    intro i x htr hl hx
    by_cases hlt : x < xh
    · have hge := step_ge hv (htr hlt) hl hlt
      by_cases hj : x + sl * r ^ i > xh - tol
      · obtain ⟨l, h⟩ := ih (i + 1) xh (fun h => absurd h (lt_irrefl _)) (by linarith) (by
          have : 0 ≤ (n : ℝ) * min sl (r * sh) := by positivity
          linarith)
        refine ⟨(if x < xh - sh then [xh - sh] else []) ++ xh :: l, fun fuel hf => ?_⟩
        obtain ⟨k, rfl⟩ : ∃ k, fuel = k + 1 := ⟨fuel - 1, by omega⟩
        rw [varLoop, if_pos hlt]
        dsimp only
        rw [if_pos hj, h k (by omega)]
        rfl
      · obtain ⟨l, h⟩ := ih (i + 1) (x + sl * r ^ i) (fun _ => (htr hlt).next) (by linarith) (by
          push_cast at hx
          linarith)
        refine ⟨(x + sl * r ^ i) :: l, fun fuel hf => ?_⟩
        obtain ⟨k, rfl⟩ : ∃ k, fuel = k + 1 := ⟨fuel - 1, by omega⟩
        rw [varLoop, if_pos hlt]
        dsimp only
        rw [if_neg hj, h k (by omega)]
        rfl
    · refine ⟨[], fun fuel hf => ?_⟩
      obtain ⟨k, rfl⟩ : ∃ k, fuel = k + 1 := ⟨fuel - 1, by omega⟩
      rw [varLoop, if_neg hlt]

theorem var_of_room {xl xh sl sh : ℝ} (h1 : 0 < sl) (h2 : 0 < sh) (h : Room xl xh sl sh) :
    Var xl xh sl sh ((xh - xl - sl) / (xh - xl - sh)) := by
  refine ⟨h1, h2, h, ?_⟩
  unfold Room at h
  have : xh - xl - sh ≠ 0 := by linarith
  field_simp

/-! ### `getPoints` -/

/-- **C32** The points between two lines begin with the first line, end with the second, increase strictly, and keep
the requested spacings. -/
theorem points_spec {fuel : Nat} {xl xh sl sh : ℝ} (hx : xl < xh) (h1 : 0 < sl) (h2 : 0 < sh) {pts : List ℝ}
    (h : getPoints fuel xl xh sl sh = some pts) :
    ∃ rest, pts = xl :: rest ∧ List.IsChain (GapOK xl xh sl sh) (xl :: rest) ∧
      (xl :: rest).getLast (by simp) = xh := by
  have ht := tol_pos
  have hm1 := le_max_left sl sh
  have hm2 := le_max_right sl sh
  unfold getPoints at h
  split at h
  · rename_i hc
    rw [div_lt_iff₀ h2] at hc
    have hc2 := (abs_lt.1 hc)
    unfold equidistance at h
    rw [Option.map_eq_some_iff] at h
    obtain ⟨l, g1, rfl⟩ := h
    obtain ⟨g2, g3⟩ := equiLoop_spec h1 fuel xl l (le_refl _) hx.le g1
    refine ⟨l, rfl, g2.imp ?_, g3⟩
    rintro u v ⟨a1, a2, a3, a4⟩
    exact ⟨a1, a2, a3, by linarith, fun _ => by linarith, fun _ _ => a4, fun _ _ => by linarith [hc2.1]⟩
  · split at h
    · rename_i hc
      rw [gt_iff_lt] at hc
      unfold equidistance at h
      rw [Option.map_eq_some_iff] at h
      obtain ⟨l, g1, rfl⟩ := h
      obtain ⟨g2, g3⟩ := equiLoop_spec (sub_pos.2 hx) fuel xl l (le_refl _) hx.le g1
      refine ⟨l, rfl, g2.imp ?_, g3⟩
      rintro u v ⟨a1, a2, a3, a4⟩
      have hno : ¬ Room xl xh sl sh := by unfold Room; linarith
      exact ⟨a1, a2, a3, by linarith, fun h => absurd h hno, fun h => absurd h hno, fun h => absurd h hno⟩
    · rename_i hc
      rw [gt_iff_lt, not_lt] at hc
      have hroom : Room xl xh sl sh := by unfold Room; linarith
      have hv := var_of_room h1 h2 hroom
      unfold variable_ at h
      dsimp only at h
      rw [Option.map_eq_some_iff] at h
      obtain ⟨l, g1, rfl⟩ := h
      obtain ⟨g2, g3⟩ := varLoop_spec hv fuel 0 xl l (fun _ => by simp [OnTrack]) (le_refl _) hx.le (fun _ => rfl) g1
      refine ⟨l, rfl, g2.imp ?_, g3⟩
      rintro u v ⟨a1, a2, a3, a4, a5, a6⟩
      have : max sl sh ≤ sl + sh := max_le (by linarith) (by linarith)
      have h5 : 0 < tol * sh := mul_pos ht h2
      exact ⟨a1, a2, a3, by linarith, fun _ => a4, fun _ => a5, fun _ hv => by linarith [a6 hv]⟩

/-- **C32** The loops end, for all positive spacings. -/
theorem points_terminate {xl xh sl sh : ℝ} (hx : xl < xh) (h1 : 0 < sl) (h2 : 0 < sh) :
    ∃ n pts, ∀ fuel, n ≤ fuel → getPoints fuel xl xh sl sh = some pts := by
  unfold getPoints
  split
  · obtain ⟨n, hn⟩ := exists_nat_ge ((xh - xl) / sl)
    obtain ⟨l, hl⟩ := equiLoop_terminates h1 n xl ((div_le_iff₀ h1).1 hn)
    exact ⟨n + 2, xl :: l, fun fuel hf => by rw [equidistance, hl fuel hf]; rfl⟩
  · split
    · obtain ⟨n, hn⟩ := exists_nat_ge ((xh - xl) / (xh - xl))
      obtain ⟨l, hl⟩ := equiLoop_terminates (sub_pos.2 hx) n xl ((div_le_iff₀ (sub_pos.2 hx)).1 hn)
      exact ⟨n + 2, xl :: l, fun fuel hf => by rw [equidistance, hl fuel hf]; rfl⟩
    · rename_i hc
      rw [gt_iff_lt, not_lt] at hc
      have hroom : Room xl xh sl sh := by unfold Room; linarith
      have hv := var_of_room h1 h2 hroom
      have hd : 0 < min sl ((xh - xl - sl) / (xh - xl - sh) * sh) := lt_min hv.slpos (mul_pos hv.rpos hv.shpos)
      obtain ⟨n, hn⟩ := exists_nat_ge ((xh - xl) / min sl ((xh - xl - sl) / (xh - xl - sh) * sh))
      obtain ⟨l, hl⟩ := varLoop_terminates hv n 0 xl (fun _ => by simp [OnTrack]) (le_refl _) ((div_le_iff₀ hd).1 hn)
      exact ⟨n + 2, xl :: l, fun fuel hf => by rw [variable_, hl fuel hf]; rfl⟩

/-- **C32 fails without room**: with 0.9 requested on the left and 0.2 on the right of an interval of length 1 the code
makes one element of length 1, although 0.2 was requested before the right line. -/
theorem no_room_counterexample : ∀ fuel, 3 ≤ fuel → getPoints fuel 0 1 0.9 0.2 = some [0, 1] := by
  intro fuel hf
  obtain ⟨k, rfl⟩ : ∃ k, fuel = k + 3 := ⟨fuel - 3, by omega⟩
  have h1 : ¬ (|(0.2 : ℝ) - 0.9| / 0.2 < tol) := by
    unfold tol; rw [abs_of_neg (by norm_num)]; norm_num
  unfold getPoints
  rw [if_neg h1, if_pos (by norm_num)]
  unfold equidistance
  rw [equiLoop, if_pos (by norm_num)]
  dsimp only
  have h2 : (0 : ℝ) + (1 - 0) > 1 - tol := by unfold tol; norm_num
  rw [if_pos h2, equiLoop, if_neg (lt_irrefl _)]
  rfl

/-- **Slivers**: the extra point that `variable` inserts can be arbitrarily close to the point before it: lines at
0 and `L`, spacings 1 and 2; here the gap is `tol / 8` although at least 1 was requested everywhere. -/
theorem sliver_counterexample : ∃ (L : ℝ) (l : List ℝ) (u v : ℝ), 0 < L ∧ [u, v] <:+: l ∧ u < v ∧ v - u < tol ∧
    ∀ fuel, 9 ≤ fuel → getPoints fuel 0 L 1 2 = some l := by
  refine ⟨3 + tol / 4, ?_⟩
  have ht := tol_pos
  have htl : tol < 1 := by unfold tol; norm_num
  obtain ⟨e, he⟩ : ∃ e, e = tol / 4 := ⟨_, rfl⟩
  have hte : tol = 4 * e := by linarith
  have hep : 0 < e := by linarith
  have hel : e < 1 / 4 := by linarith
  obtain ⟨r, hr⟩ : ∃ r, r = (3 + e - 0 - 1) / (3 + e - 0 - 2) := ⟨_, rfl⟩
  have hne : (1 : ℝ) + e ≠ 0 := by linarith
  have hr' : r = 2 - e / (1 + e) := by
    have a1 : (3 : ℝ) + e - 0 - 1 = 2 + e := by ring
    have a2 : (3 : ℝ) + e - 0 - 2 = 1 + e := by ring
    rw [hr, a1, a2, eq_sub_iff_add_eq, ← add_div, div_eq_iff hne]; ring
  have hfrac : 0 < e / (1 + e) ∧ e / (1 + e) < e := by
    constructor
    · positivity
    · rw [div_lt_iff₀ (by linarith)]; nlinarith
  refine ⟨[0, 1, 1 + e, 3 + e], 1, 1 + e, by linarith, ⟨[0], [3 + e], rfl⟩, by linarith, by linarith, ?_⟩
  intro fuel hf
  obtain ⟨k, rfl⟩ : ∃ k, fuel = k + 4 := ⟨fuel - 4, by omega⟩
  have h1 : ¬ (|(2 : ℝ) - 1| / 2 < tol) := by
    unfold tol; rw [abs_of_pos (by norm_num)]; norm_num
  unfold getPoints
  rw [← he, if_neg h1, if_neg (by linarith), variable_]
  rw [← hr, varLoop, if_pos (by linarith)]
  dsimp only
  rw [if_neg (by rw [pow_zero]; linarith), varLoop, if_pos (by rw [pow_zero]; linarith)]
  dsimp only
  rw [pow_zero, zero_add, pow_one, if_pos (by rw [hr']; linarith), varLoop, if_neg (lt_irrefl _),
    if_pos (by linarith)]
  simp only [Option.map_some, List.cons_append, List.nil_append]
  norm_num
  ring

end Verif.Mesh
