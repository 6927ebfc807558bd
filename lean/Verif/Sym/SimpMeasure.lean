import Verif.Sym.SimpLimit

/-!
# Simplification returns: what gets smaller

`ht` counts how deep exponents and arguments of functions are nested; sums, products and bases do not
count. Within one such level `mm` counts how deep sums, products and bases are nested.
-/

namespace Verif.Sym

variable {K : Type} {C : Cfg K}

mutual
/-- Nesting of exponents and of arguments of functions. -/
def ht : Expr K → Nat
  | .con _ => 0
  | .var _ => 1
  | .model _ => 1
  | .add vs => htL vs
  | .prod vs => htL vs
  | .exp a => ht a + 1
  | .log a => ht a + 1
  | .pow b e => max (ht b) (ht e + 1)
  | .user _ as => htL as + 1
  | .blog _ _ _ => 1
  | .ulog _ => 1
def htL : List (Expr K) → Nat
  | [] => 0
  | v :: vs => max (ht v) (htL vs)
end

def Expr.isPow : Expr K → Bool
  | .pow _ _ => true
  | _ => false

def Expr.isProd : Expr K → Bool
  | .prod _ => true
  | _ => false

mutual
/-- Nesting of sums, products and bases, among the parts of the greatest `ht`. -/
def mm : Expr K → Nat
  | .log a => if ht a = 0 then 0 else 2 * mm a
  | .pow b e => if ht b < ht e + 1 then 1 else mm b + 1
  | .prod vs => mwL vs (htL vs) + 1
  | .add vs => mpL vs (htL vs) + 1
  | _ => 0
def mwL : List (Expr K) → Nat → Nat
  | [], _ => 0
  | v :: vs, h => max (if ht v = h then mm v + (if v.isPow then 0 else 1) else 0) (mwL vs h)
def mpL : List (Expr K) → Nat → Nat
  | [], _ => 0
  | v :: vs, h => max (if ht v = h then (if v.isProd then mm v else mm v + (if v.isPow then 0 else 1) + 1)
      else 0) (mpL vs h)
end

/-- As a factor: anything counts as a power. -/
def mw (v : Expr K) : Nat := mm v + (if v.isPow then 0 else 1)

/-- As a term: anything counts as a product of powers. -/
def mp (v : Expr K) : Nat := if v.isProd then mm v else mw v + 1

def BM (h m : Nat) (v : Expr K) : Prop := ht v ≤ h ∧ (ht v = h → mm v ≤ m)
def BW (h m : Nat) (v : Expr K) : Prop := ht v ≤ h ∧ (ht v = h → mw v ≤ m)
def BP (h m : Nat) (v : Expr K) : Prop := ht v ≤ h ∧ (ht v = h → mp v ≤ m)

theorem mm_le_mw (v : Expr K) : mm v ≤ mw v := by unfold mw; omega
theorem mw_le_mm (v : Expr K) : mw v ≤ mm v + 1 := by unfold mw; split <;> omega
theorem mm_le_mp (v : Expr K) : mm v ≤ mp v := by
  have := mm_le_mw v; unfold mp; split <;> omega
theorem mp_le_mw (v : Expr K) : mp v ≤ mw v + 1 := by
  have := mm_le_mw v; unfold mp; split <;> omega
theorem mw_pow (b e : Expr K) : mw (.pow b e) = mm (.pow b e) := by simp [mw, Expr.isPow]
theorem mw_other {v : Expr K} (h : v.isPow = false) : mw v = mm v + 1 := by simp [mw, h]
theorem mp_prod (vs : List (Expr K)) : mp (.prod vs) = mm (.prod vs) := by simp [mp, Expr.isProd]
theorem mp_other {v : Expr K} (h : v.isProd = false) : mp v = mw v + 1 := by simp [mp, h]

theorem BW.bm {h m : Nat} {v : Expr K} (hv : BW h m v) : BM h m v :=
  ⟨hv.1, fun e => le_trans (mm_le_mw v) (hv.2 e)⟩
theorem BP.bm {h m : Nat} {v : Expr K} (hv : BP h m v) : BM h m v :=
  ⟨hv.1, fun e => le_trans (mm_le_mp v) (hv.2 e)⟩
theorem BM.mono {h m m' : Nat} {v : Expr K} (hv : BM h m v) (hm : m ≤ m') : BM h m' v :=
  ⟨hv.1, fun e => le_trans (hv.2 e) hm⟩
theorem BW.mono {h m m' : Nat} {v : Expr K} (hv : BW h m v) (hm : m ≤ m') : BW h m' v :=
  ⟨hv.1, fun e => le_trans (hv.2 e) hm⟩
theorem BP.mono {h m m' : Nat} {v : Expr K} (hv : BP h m v) (hm : m ≤ m') : BP h m' v :=
  ⟨hv.1, fun e => le_trans (hv.2 e) hm⟩
theorem BW.bp {h m : Nat} {v : Expr K} (hv : BW h m v) : BP h (m + 1) v :=
  ⟨hv.1, fun e => le_trans (mp_le_mw v) (Nat.succ_le_succ (hv.2 e))⟩
theorem BM.bw {h m : Nat} {v : Expr K} (hv : BM h m v) : BW h (m + 1) v :=
  ⟨hv.1, fun e => le_trans (mw_le_mm v) (Nat.succ_le_succ (hv.2 e))⟩

theorem BW.light {h m : Nat} {v : Expr K} (hv : ht v < h) : BW h m v := ⟨hv.le, fun e => by omega⟩
theorem BP.light {h m : Nat} {v : Expr K} (hv : ht v < h) : BP h m v := ⟨hv.le, fun e => by omega⟩
theorem BM.light {h m : Nat} {v : Expr K} (hv : ht v < h) : BM h m v := ⟨hv.le, fun e => by omega⟩

/-! ### Lists -/

theorem htL_le {h : Nat} : ∀ {vs : List (Expr K)}, htL vs ≤ h ↔ ∀ v ∈ vs, ht v ≤ h
  | [] => by simp [htL]
  | v :: vs => by simp [htL, htL_le (vs := vs)]

theorem le_htL {vs : List (Expr K)} {v : Expr K} (hv : v ∈ vs) : ht v ≤ htL vs :=
  htL_le.1 le_rfl v hv

theorem htL_attained : ∀ {vs : List (Expr K)}, 0 < htL vs → ∃ v ∈ vs, ht v = htL vs
  | [], h => by simp [htL] at h
  | v :: vs, h => by
    simp only [htL] at h ⊢
    rcases le_total (ht v) (htL vs) with hc | hc
    · rw [max_eq_right hc] at h ⊢
      obtain ⟨w, hw, e⟩ := htL_attained (vs := vs) h
      exact ⟨w, by simp [hw], e⟩
    · rw [max_eq_left hc]
      exact ⟨v, by simp, rfl⟩

theorem mwL_le {h m : Nat} : ∀ {vs : List (Expr K)}, mwL vs h ≤ m ↔ ∀ v ∈ vs, ht v = h → mw v ≤ m
  | [] => by simp [mwL]
  | v :: vs => by
    rw [mwL, max_le_iff, mwL_le (vs := vs), List.forall_mem_cons]
    refine and_congr_left' ?_
    unfold mw
    split <;> simp_all

theorem mpL_le {h m : Nat} : ∀ {vs : List (Expr K)}, mpL vs h ≤ m ↔ ∀ v ∈ vs, ht v = h → mp v ≤ m
  | [] => by simp [mpL]
  | v :: vs => by
    rw [mpL, max_le_iff, mpL_le (vs := vs), List.forall_mem_cons]
    refine and_congr_left' ?_
    unfold mp mw
    split <;> simp_all

theorem BM_prod {h m : Nat} {vs : List (Expr K)} : BM h (m + 1) (.prod vs) ↔ ∀ v ∈ vs, BW h m v := by
  unfold BM BW
  simp only [ht, mm, Nat.add_le_add_iff_right]
  constructor
  · rintro ⟨h1, h2⟩ v hv
    refine ⟨htL_le.1 h1 v hv, fun e => ?_⟩
    have hL : htL vs = h := le_antisymm h1 (e ▸ le_htL hv)
    rw [hL] at h2
    exact mwL_le.1 (h2 rfl) v hv e
  · intro hv
    refine ⟨htL_le.2 fun v h => (hv v h).1, fun e => ?_⟩
    rw [e]
    exact mwL_le.2 fun v h => (hv v h).2

theorem BM_add {h m : Nat} {vs : List (Expr K)} : BM h (m + 1) (.add vs) ↔ ∀ v ∈ vs, BP h m v := by
  unfold BM BP
  simp only [ht, mm, Nat.add_le_add_iff_right]
  constructor
  · rintro ⟨h1, h2⟩ v hv
    refine ⟨htL_le.1 h1 v hv, fun e => ?_⟩
    have hL : htL vs = h := le_antisymm h1 (e ▸ le_htL hv)
    rw [hL] at h2
    exact mpL_le.1 (h2 rfl) v hv e
  · intro hv
    refine ⟨htL_le.2 fun v h => (hv v h).1, fun e => ?_⟩
    rw [e]
    exact mpL_le.2 fun v h => (hv v h).2

/-- A power, as a factor. -/
theorem BW_pow {h m : Nat} (hm : 1 ≤ m) {b e : Expr K} : BW h m (.pow b e) ↔
    ht b ≤ h ∧ ht e < h ∧ (ht b = h → mm b + 1 ≤ m) := by
  unfold BW
  rw [mw_pow]
  simp only [ht, mm]
  constructor
  · rintro ⟨h1, h2⟩
    refine ⟨by omega, by omega, fun hb => ?_⟩
    have := h2 (by omega)
    rwa [if_neg (by omega)] at this
  · rintro ⟨h1, h2, h3⟩
    refine ⟨by omega, fun e => ?_⟩
    split
    · exact hm
    · exact h3 (by omega)

/-! ### The constructors -/

@[simp] theorem ht_conI (z : ℤ) : ht (conI C z) = 0 := by simp [conI, ht]

theorem htL_perm {l l' : List (Expr K)} (h : l.Perm l') : htL l = htL l' :=
  le_antisymm (htL_le.2 fun _ hv => le_htL (h.mem_iff.1 hv))
    (htL_le.2 fun _ hv => le_htL (h.mem_iff.2 hv))

theorem mwL_perm {l l' : List (Expr K)} (h : l.Perm l') (n : Nat) : mwL l n = mwL l' n :=
  le_antisymm (mwL_le.2 fun v hv => mwL_le.1 le_rfl v (h.mem_iff.1 hv))
    (mwL_le.2 fun v hv => mwL_le.1 le_rfl v (h.mem_iff.2 hv))

theorem mpL_perm {l l' : List (Expr K)} (h : l.Perm l') (n : Nat) : mpL l n = mpL l' n :=
  le_antisymm (mpL_le.2 fun v hv => mpL_le.1 le_rfl v (h.mem_iff.1 hv))
    (mpL_le.2 fun v hv => mpL_le.1 le_rfl v (h.mem_iff.2 hv))

theorem mem_srt {vs : List (Expr K)} {v : Expr K} : v ∈ C.srt vs ↔ v ∈ vs := (C.srt_perm vs).mem_iff

theorem ht_mkProd (vs : List (Expr K)) : ht (mkProd C vs) = htL vs := by
  rw [mkProd, ht, htL_perm (C.srt_perm vs)]

theorem ht_mkAdd (vs : List (Expr K)) : ht (mkAdd C vs) = htL vs := by
  rw [mkAdd, ht, htL_perm (C.srt_perm vs)]

theorem htL_append (l l' : List (Expr K)) : htL (l ++ l') = max (htL l) (htL l') := by
  induction l with
  | nil => simp [htL]
  | cons v l ih => simp [htL, ih, max_assoc]

theorem ht_mul (x y : Expr K) : ht (mul C x y) ≤ max (ht x) (ht y) := by
  unfold mul
  split
  · simp
  · split
    · simp
    · split
      · simp
      · split <;> simp [ht_mkProd, ht, htL, htL_append]

theorem ht_plus (x y : Expr K) : ht (plus C x y) ≤ max (ht x) (ht y) := by
  unfold plus
  split
  · simp
  · split
    · simp
    · split <;> simp [ht_mkAdd, ht, htL, htL_append]

theorem ht_minus_one (e : Expr K) : ht (minus C e (conI C 1)) ≤ ht e := by
  unfold minus
  refine le_trans (ht_plus _ _) ?_
  have := ht_mul (C := C) (conI C (-1)) (conI C 1)
  simp only [ht_conI, max_self, Nat.le_zero] at this
  simp [this]

theorem ht_clone : ∀ v : Expr K, ht (clone C v) = ht v := by
  have hL : ∀ vs : List (Expr K), (∀ v ∈ vs, ht (clone C v) = ht v) →
      htL (vs.map (clone C)) = htL vs := by
    intro vs
    induction vs with
    | nil => simp
    | cons v vs ih => intro h; simp [htL, h v (by simp), ih fun w hw => h w (by simp [hw])]
  intro v
  induction v using Expr.ind with
  | hadd vs ih => rw [clone, cloneL_eq, ht_mkAdd, hL vs ih, ht]
  | hprod vs ih => rw [clone, cloneL_eq, ht_mkProd, hL vs ih, ht]
  | huser f as ih => rw [clone, cloneL_eq, ht, hL as ih, ht]
  | hexp a ih => rw [clone, ht, ih, ht]
  | hlog a ih => rw [clone, ht, ih, ht]
  | hpow b e ihb ihe => rw [clone, ht, ihb, ihe, ht]
  | hblog => rw [clone, ht, ht]
  | hulog => rw [clone, ht, ht]
  | _ => rw [clone]

theorem isPow_clone (v : Expr K) : (clone C v).isPow = v.isPow := by
  cases v <;> simp [clone, Expr.isPow, mkAdd, mkProd]

theorem isProd_clone (v : Expr K) : (clone C v).isProd = v.isProd := by
  cases v <;> simp [clone, Expr.isProd, mkAdd, mkProd]

theorem mm_clone : ∀ v : Expr K, mm (clone C v) = mm v := by
  have hW : ∀ (vs : List (Expr K)) (h : Nat), (∀ v ∈ vs, mm (clone C v) = mm v) →
      mwL (vs.map (clone C)) h = mwL vs h := by
    intro vs h
    induction vs with
    | nil => simp
    | cons v vs ih =>
      intro hv
      simp [mwL, hv v (by simp), ht_clone, isPow_clone, ih fun w hw => hv w (by simp [hw])]
  have hP : ∀ (vs : List (Expr K)) (h : Nat), (∀ v ∈ vs, mm (clone C v) = mm v) →
      mpL (vs.map (clone C)) h = mpL vs h := by
    intro vs h
    induction vs with
    | nil => simp
    | cons v vs ih =>
      intro hv
      simp [mpL, hv v (by simp), ht_clone, isPow_clone, isProd_clone,
        ih fun w hw => hv w (by simp [hw])]
  have hL : ∀ vs : List (Expr K), htL (vs.map (clone C)) = htL vs := by
    intro vs
    induction vs with
    | nil => simp
    | cons v vs ih => simp [htL, ht_clone, ih]
  intro v
  induction v using Expr.ind with
  | hadd vs ih =>
    rw [clone, cloneL_eq, mkAdd, mm, htL_perm (C.srt_perm _), mpL_perm (C.srt_perm _), hL, hP _ _ ih, mm]
  | hprod vs ih =>
    rw [clone, cloneL_eq, mkProd, mm, htL_perm (C.srt_perm _), mwL_perm (C.srt_perm _), hL, hW _ _ ih, mm]
  | hlog a ih => rw [clone, mm, ih, ht_clone, mm]
  | hpow b e ihb ihe => rw [clone, mm, ihb, ht_clone, ht_clone, mm]
  | _ => simp [clone, mm]

theorem BW.clone {h m : Nat} {v : Expr K} (hv : BW h m v) : BW h m (clone C v) := by
  unfold BW mw at *
  rwa [ht_clone, mm_clone, isPow_clone]

theorem BW.factors {h m : Nat} {v : Expr K} (hv : BW h m v) : ∀ w ∈ v.factors, BW h m w := by
  unfold Expr.factors
  split
  · exact BM_prod.1 (hv.bm.mono (by omega))
  · simpa using hv

theorem BP.terms {h m : Nat} {v : Expr K} (hv : BP h m v) : ∀ w ∈ v.terms, BP h m w := by
  unfold Expr.terms
  split
  · exact BM_add.1 (hv.bm.mono (by omega))
  · simpa using hv

end Verif.Sym
