import Verif.Solve.Spec

namespace Verif.Solve

open Classical
open Verif.Newton

theorem maxAt_succ (f : Nat → ℝ) (n : Nat) :
    maxAt f (n + 1) = if f n > (maxAt f n).1 then (f n, n) else maxAt f n := by
  unfold maxAt
  rw [List.range_succ, List.foldl_append]
  rfl

theorem maxUp_succ (f : Nat → ℝ) (n : Nat) : maxUp f (n + 1) = if f n > maxUp f n then f n else maxUp f n := by
  unfold maxUp
  rw [List.range_succ, List.foldl_append]
  rfl

theorem maxAt_fst (f : Nat → ℝ) (n : Nat) : (maxAt f n).1 = maxUp f n := by
  induction n with
  | zero => rfl
  | succ n ih =>
    rw [maxAt_succ, maxUp_succ, ih]
    split <;> simp [ih]

theorem maxAt_node (f : Nat → ℝ) (n : Nat) :
    (maxUp f n = 0 ∧ (maxAt f n).2 = 0 ∨ (maxAt f n).2 < n ∧ f (maxAt f n).2 = maxUp f n) ∧ ∀ k < (maxAt f n).2, f k < maxUp f n := by
  induction n with
  | zero => exact ⟨.inl ⟨rfl, rfl⟩, fun k hk => by simp [maxAt] at hk⟩
  | succ n ih =>
    rw [maxUp_succ, maxAt_succ, maxAt_fst]
    by_cases h : f n > maxUp f n
    · simp only [h, if_true]
      refine ⟨.inr ⟨Nat.lt_succ_self n, trivial⟩, fun k hk => lt_of_le_of_lt (maxUp_le f n k hk) h⟩
    · simp only [h, if_false]
      refine ⟨?_, ih.2⟩
      rcases ih.1 with h1 | h1
      · exact .inl h1
      · exact .inr ⟨by omega, h1.2⟩

theorem maxUp_at (f : Nat → ℝ) (n : Nat) : maxUp f n = 0 ∨ ∃ k < n, f k = maxUp f n := by
  rcases (maxAt_node f n).1 with h | h
  · exact .inl h.1
  · exact .inr ⟨_, h.1, h.2⟩

theorem maxUp_congr {f g : Nat → ℝ} {n : Nat} (h : ∀ k < n, f k = g k) : maxUp f n = maxUp g n := by
  induction n with
  | zero => rfl
  | succ n ih =>
    rw [maxUp_succ, maxUp_succ, ih fun k hk => h k (by omega), h n (by omega)]

theorem report_update (e : Eqn) (n base : Nat) (old x : Nat → ℝ) :
    (report e n base old x).map (fun p => (p.1, p.2.abs, p.2.rel)) = e.update n base old x := by
  unfold report Eqn.update
  dsimp only
  split
  · simp only [Option.map_some, maxAt_fst]
  · rfl

theorem report_tells {e : Eqn} {n base : Nat} {old x new : Nat → ℝ} {i : EqInfo} (h : report e n base old x = some (new, i)) :
    EqTells n e old new i := by
  unfold report at h
  dsimp only at h
  split at h
  · rename_i hs
    simp only [Option.some.injEq, Prod.mk.injEq] at h
    obtain ⟨hnew, rfl⟩ := h
    generalize hu : (fun i => ((damp e.utype (old i) (x (base + e.index * n + i))).getD (0, 0)).1) = upd
    have hupd : ∀ k, ((damp e.utype (old k) (x (base + e.index * n + k))).getD (0, 0)).1 = upd k := fun k => by rw [← hu]
    simp only [hupd, hnew]
    simp only [fun k => congrFun hnew k]
    have step : ∀ k < n, upd k = new k - old k := by
      intro k hk
      obtain ⟨p, hp⟩ := Option.isSome_iff_exists.1 (hs k hk)
      have hd : p.2 - old k = p.1 := damp_step hp
      rw [← hupd k, ← hnew]
      simp [hk, hp, hd]
    have ha : maxUp (fun k => |upd k|) n = maxUp (fun k => |new k - old k|) n := maxUp_congr fun k hk => by rw [step k hk]
    have hr : maxUp (fun k => |upd k| / (|new k| + e.minError)) n = maxUp (ratio e.minError old new) n :=
      maxUp_congr fun k hk => by rw [step k hk]; rfl
    have hnode := maxAt_node (fun k => |upd k|) n
    refine ⟨rfl, ?_, ?_, ?_, ?_, ?_⟩
    · intro k hk
      simp only [maxAt_fst]
      rw [← step k hk]
      exact maxUp_le (fun k => |upd k|) n k hk
    · simp only [maxAt_fst]
      rcases hnode.1 with h1 | h1
      · exact .inl h1.1
      · refine .inr ⟨h1.1, ?_⟩
        rw [← step _ h1.1]
        exact h1.2
    · intro k hk
      simp only [maxAt_fst] at hk ⊢
      have hkn : k < n := by
        rcases hnode.1 with h1 | h1
        · rw [h1.2] at hk; omega
        · omega
      rw [← step k hkn]
      exact hnode.2 k hk
    · intro k hk
      simp only
      rw [hr]
      exact maxUp_le _ n k hk
    · simp only
      rw [hr]
      exact maxUp_at _ n
  · simp at h

theorem updEqsI_spec (n base : Nat) (x : Nat → ℝ) : ∀ (es : List Eqn) (ms : Models) (acc : ℝ × ℝ),
    updEqs n base x es ms acc = ((updEqsI n base x es ms acc).1, (updEqsI n base x es ms acc).2.map (·.1)) := by
  intro es
  induction es with
  | nil => intro ms acc; rfl
  | cons e es ih =>
    intro ms acc
    rw [updEqs, updEqsI]
    cases hm : ms e.var with
    | none => rfl
    | some m =>
      cases m with
      | derived f => rfl
      | solution old =>
        dsimp only
        rw [← report_update]
        cases hr : report e n base old x with
        | none => rfl
        | some p =>
          obtain ⟨new, i⟩ := p
          simp only [Option.map_some]
          rw [ih]
          simp [Option.map_map, Function.comp_def]

theorem updEqsI_tells (n base : Nat) (x : Nat → ℝ) : ∀ (es : List Eqn) (ms ms' : Models) (acc tot : ℝ × ℝ) (is : List EqInfo),
    (es.map (·.var)).Nodup → updEqsI n base x es ms acc = (ms', some (tot, is)) →
    tot.1 = acc.1 + (is.map (·.abs)).sum ∧ tot.2 = acc.2 + (is.map (·.rel)).sum ∧
    List.Forall₂ (fun e q => ∃ old new, ms e.var = some (.solution old) ∧ ms' e.var = some (.solution new) ∧ EqTells n e old new q) es is := by
  intro es
  induction es with
  | nil =>
    intro ms ms' acc tot is _ h
    simp only [updEqsI, Prod.mk.injEq, Option.some.injEq] at h
    obtain ⟨rfl, rfl, rfl⟩ := h
    simp
  | cons e es ih =>
    intro ms ms' acc tot is hnd h
    have hfull := updEqsI_spec n base x (e :: es) ms acc
    rw [h] at hfull
    rw [List.map_cons, List.nodup_cons] at hnd
    rw [updEqsI] at h
    split at h
    · rename_i old ho
      split at h
      · simp at h
      · rename_i new i hr
        dsimp only at h
        generalize ht : updEqsI n base x es (ms.set e.var new) (acc.1 + i.abs, acc.2 + i.rel) = t at h
        obtain ⟨t1, t2⟩ := t
        simp only [Prod.mk.injEq, Option.map_eq_some_iff] at h
        obtain ⟨rfl, ⟨tot', is'⟩, rfl, h2⟩ := h
        obtain ⟨rfl, rfl⟩ := h2
        obtain ⟨h1, h2, h3⟩ := ih _ _ _ _ _ hnd.2 ht
        refine ⟨by simp [h1]; ring, by simp [h2]; ring, .cons ⟨old, new, ho, ?_, report_tells hr⟩ ?_⟩
        · have := updEqsI_spec n base x es (ms.set e.var new) (acc.1 + i.abs, acc.2 + i.rel)
          rw [ht] at this
          dsimp only at this ⊢
          rw [updEqs_others _ _ _ _ _ this e.var hnd.1, set_same]
        · refine List.forall₂_iff_get.mpr ?_
          have h3' := List.forall₂_iff_get.mp h3
          refine ⟨h3'.1, fun k hk1 hk2 => ?_⟩
          obtain ⟨o, nw, g1, g2, g3⟩ := h3'.2 k hk1 hk2
          refine ⟨o, nw, ?_, g2, g3⟩
          rw [set_other] at g1
          · exact g1
          · intro hh
            exact hnd.1 (hh ▸ List.mem_map.2 ⟨_, List.get_mem es ⟨k, hk1⟩, rfl⟩)
    · simp at h

theorem updDeviceI_spec (x : Nat → ℝ) : ∀ (d : List Region) (rn : Nat → String) (acc : ℝ × ℝ),
    updDevice x d acc = ((updDeviceI x rn d acc).1, (updDeviceI x rn d acc).2.map (·.1)) := by
  intro d
  induction d with
  | nil => intro rn acc; rfl
  | cons r rs ih =>
    intro rn acc
    rw [updDevice, updDeviceI, updEqsI_spec]
    cases hu : updEqsI r.numNodes r.base x r.eqs r.models (0, 0) with
    | mk ms o =>
      cases o with
      | none => rfl
      | some p =>
        obtain ⟨⟨a, e⟩, is⟩ := p
        simp only [Option.map_some]
        rw [ih (fun j => rn (j + 1))]
        simp [Option.map_map, Function.comp_def]

theorem updDeviceI_tells (x : Nat → ℝ) : ∀ (d d' : List Region) (rn : Nat → String) (acc tot : ℝ × ℝ) (is : List RegInfo),
    (∀ r ∈ d, OneEquationPerVar r) → updDeviceI x rn d acc = (d', some (tot, is)) →
    acc.1 ≤ tot.1 ∧ (∀ q ∈ is, q.abs ≤ tot.1) ∧ (tot.1 = acc.1 ∨ ∃ q ∈ is, q.abs = tot.1) ∧
    tot.2 = acc.2 + (is.map (·.rel)).sum ∧ is.length = d.length ∧
    (∀ (j : Nat) r r' q, d[j]? = some r → d'[j]? = some r' → is[j]? = some q → RegTells (rn j) r r' q) := by
  intro d
  induction d with
  | nil =>
    intro d' rn acc tot is _ h
    simp only [updDeviceI, Prod.mk.injEq, Option.some.injEq] at h
    obtain ⟨rfl, rfl, rfl⟩ := h
    simp
  | cons r rs ih =>
    intro d' rn acc tot is hnd h
    rw [updDeviceI] at h
    split at h
    · simp at h
    · rename_i ms a e qs hu
      dsimp only at h
      generalize ht : updDeviceI x (fun j => rn (j + 1)) rs (if a > acc.1 then a else acc.1, acc.2 + e) = t at h
      obtain ⟨t1, t2⟩ := t
      simp only [Prod.mk.injEq, Option.map_eq_some_iff] at h
      obtain ⟨rfl, ⟨tot', is'⟩, rfl, h2⟩ := h
      obtain ⟨rfl, rfl⟩ := h2
      obtain ⟨u1, u2, u3⟩ := updEqsI_tells _ _ _ _ _ _ _ _ _ (hnd r (by simp)) hu
      obtain ⟨h1, h2, h3, h4, h5, h6⟩ := ih _ _ _ _ _ (fun r hr => hnd r (by simp [hr])) ht
      dsimp only at h1 h3 h4 u1 u2
      have hmax : acc.1 ≤ (if a > acc.1 then a else acc.1) ∧ a ≤ (if a > acc.1 then a else acc.1) := by
        split <;> constructor <;> linarith
      refine ⟨by linarith [hmax.1], ?_, ?_, ?_, by simp [h5], ?_⟩
      · intro q hq
        rcases List.mem_cons.1 hq with rfl | hq
        · dsimp only; linarith [hmax.2]
        · exact h2 q hq
      · rcases h3 with h3 | ⟨q, hq, h3⟩
        · by_cases ha : a > acc.1
          · rw [if_pos ha] at h3
            exact .inr ⟨_, List.mem_cons_self, h3.symm⟩
          · rw [if_neg ha] at h3
            exact .inl h3
        · exact .inr ⟨q, by simp [hq], h3⟩
      · rw [h4]; simp; ring
      · intro j r1 r1' q g1 g2 g3
        cases j with
        | zero =>
          simp only [List.getElem?_cons_zero, Option.some.injEq] at g1 g2 g3
          subst g1 g2 g3
          exact ⟨rfl, by simpa using u1, by simpa using u2, u3⟩
        | succ j =>
          simp only [List.getElem?_cons_succ] at g1 g2 g3
          exact h6 j r1 r1' q g1 g2 g3

theorem updDevicesI_spec (x : Nat → ℝ) : ∀ (ds : List (List Region)) (nm : Names),
    updDevices x ds = ((updDevicesI x nm ds).1, (updDevicesI x nm ds).2.map fun p => p.map fun d => (d.abs, d.rel)) := by
  intro ds
  induction ds with
  | nil => intro nm; rfl
  | cons d ds ih =>
    intro nm
    rw [updDevices, updDevicesI, updDeviceI_spec x d (nm.reg 0)]
    cases hu : updDeviceI x (nm.reg 0) d (0, 0) with
    | mk d' o =>
      cases o with
      | none => rfl
      | some p =>
        obtain ⟨e, is⟩ := p
        simp only [Option.map_some]
        rw [ih ⟨fun i => nm.dev (i + 1), fun i => nm.reg (i + 1)⟩]
        simp [Option.map_map, Function.comp_def]

theorem updDevicesI_tells (x : Nat → ℝ) : ∀ (ds ds' : List (List Region)) (nm : Names) (is : List DevInfo),
    (∀ d ∈ ds, ∀ r ∈ d, OneEquationPerVar r) → updDevicesI x nm ds = (ds', some is) →
    is.length = ds.length ∧
    (∀ (j : Nat) d d' q, ds[j]? = some d → ds'[j]? = some d' → is[j]? = some q → DevTells (nm.dev j) (nm.reg j) d d' q) := by
  intro ds
  induction ds with
  | nil =>
    intro ds' nm is _ h
    simp only [updDevicesI, Prod.mk.injEq, Option.some.injEq] at h
    obtain ⟨rfl, rfl⟩ := h
    simp
  | cons d ds ih =>
    intro ds' nm is hnd h
    rw [updDevicesI] at h
    split at h
    · simp at h
    · rename_i d' e rs hu
      dsimp only at h
      generalize ht : updDevicesI x ⟨fun i => nm.dev (i + 1), fun i => nm.reg (i + 1)⟩ ds = t at h
      obtain ⟨t1, t2⟩ := t
      simp only [Prod.mk.injEq, Option.map_eq_some_iff] at h
      obtain ⟨rfl, is', rfl, rfl⟩ := h
      obtain ⟨u1, u2, u3, u4, u5, u6⟩ := updDeviceI_tells _ _ _ _ _ _ _ (hnd d (by simp)) hu
      obtain ⟨h1, h2⟩ := ih _ _ _ (fun d hd => hnd d (by simp [hd])) ht
      refine ⟨by simp [h1], ?_⟩
      intro j d1 d1' q g1 g2 g3
      cases j with
      | zero =>
        simp only [List.getElem?_cons_zero, Option.some.injEq] at g1 g2 g3
        subst g1 g2 g3
        exact ⟨rfl, u2, u3, by simpa using u4, u5, u6⟩
      | succ j =>
        simp only [List.getElem?_cons_succ] at g1 g2 g3
        exact h2 j d1 d1' q g1 g2 g3

theorem updWorldI_spec (x : Nat → ℝ) (nm : Names) (w : World) :
    updWorld x w = ((updWorldI x nm w).1, (updWorldI x nm w).2.map errors) := by
  unfold updWorld updWorldI
  rw [updDevicesI_spec x w.devices nm]
  cases hu : updDevicesI x nm w.devices with
  | mk ds o =>
    cases o with
    | none => rfl
    | some is =>
      simp only [Option.map_some]
      cases w.circuit with
      | none => rfl
      | some c =>
        dsimp only
        cases c.dcop with
        | none => rfl
        | some old => rfl

theorem circuit_tells (c : Circuit) (x old : Nat → ℝ) : CircTells c old (c.update x old).1 ⟨(c.update x old).2.2, (c.update x old).2.1⟩ := by
  have step : ∀ k < c.size, (c.update x old).1 k - old k = x (k + c.base) := by
    intro k hk
    simp [Circuit.update, hk]
  have e2 : (c.update x old).2.2 = maxUp (ratio 1e-10 old (c.update x old).1) c.size := by
    have h : (c.update x old).2.2 = maxUp (fun i => |x (i + c.base)| / (|(c.update x old).1 i| + 1e-10)) c.size := rfl
    rw [h]
    exact maxUp_congr fun k hk => by rw [ratio, step k hk]
  have e1 : (c.update x old).2.1 = ((List.range c.size).map fun k => |(c.update x old).1 k - old k|).sum := by
    have h : (c.update x old).2.1 = ((List.range c.size).map fun i => |x (i + c.base)|).sum := rfl
    rw [h]
    congr 1
    refine List.map_congr_left fun i hi => ?_
    rw [step i (List.mem_range.1 hi)]
  generalize c.update x old = u at *
  obtain ⟨new, a, r⟩ := u
  dsimp only at *
  subst e1 e2
  exact ⟨rfl, fun k hk => maxUp_le _ _ k hk, maxUp_at _ _⟩

theorem updWorldI_tells {x : Nat → ℝ} {nm : Names} {w w' : World} {p : List DevInfo × Option CircInfo}
    (hnd : ∀ d ∈ w.devices, ∀ r ∈ d, OneEquationPerVar r) (h : updWorldI x nm w = (w', some p)) (k : Nat) :
    IterTells nm w w' ⟨k, p.1, p.2⟩ := by
  unfold updWorldI at h
  split at h
  · simp at h
  rename_i ds is hu
  obtain ⟨h1, h2⟩ := updDevicesI_tells _ _ _ _ _ hnd hu
  split at h
  · rename_i hc
    simp only [Prod.mk.injEq, Option.some.injEq] at h
    obtain ⟨rfl, rfl⟩ := h
    exact ⟨h1, h2, by simp [hc], fun c q hcc => by rw [hc] at hcc; cases hcc⟩
  · rename_i c hc
    split at h
    · simp at h
    · rename_i old ho
      simp only [Prod.mk.injEq, Option.some.injEq] at h
      obtain ⟨rfl, rfl⟩ := h
      refine ⟨h1, h2, by simp [hc], fun c1 q hcc hq => ?_⟩
      rw [hc, Option.some.injEq] at hcc
      subst hcc
      simp only [Option.some.injEq] at hq
      subst hq
      exact ⟨_, old, _, rfl, ho, rfl, circuit_tells c x old⟩

end Verif.Solve
