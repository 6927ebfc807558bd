import Verif.ExtSolver.Spec

/-!
One round of assembling: entries are added, the matrix is finalized, the status may be overwritten, and the matrix is cleared.
-/

namespace Verif.ExtSolver
open Verif Verif.Matrix Verif.Matrix.Spec

variable {R : Type} [AddZeroClass R] [DecidableEq R]

/-- the status "same symbolic" is only given to a matrix that was compressed -/
theorem finalize_same {t s2 : Mat R} (h3 : finalize t = some s2) (hsame : s2.sameSym = true) :
    t.compressed = true ∧ s2.ap = t.ap ∧ s2.ai = t.ai := by
  unfold finalize at h3
  by_cases hc : t.compressed = true
  · rw [if_pos hc] at h3
    simp only [Option.some.injEq] at h3
    subst h3
    exact ⟨hc, rfl, rfl⟩
  · exfalso
    rw [if_neg hc] at h3
    split at h3
    · simp at h3
    · rename_i u hu
      have e1 : u.sameSym = false := by rw [reAdd_sameSym hu]; rfl
      dsimp only at h3
      split at h3
      · split at h3
        · simp at h3
        · rename_i w hw
          simp only [Option.some.injEq] at h3
          subst h3
          have e2 : w.sameSym = false := by rw [reAdd_sameSym hw]; exact e1
          have : (clearOob w true w.n).sameSym = w.sameSym := rfl
          rw [this, e2] at hsame
          simp at hsame
      · simp only [Option.some.injEq] at h3
        subst h3
        have : (clearOob u false u.n).sameSym = u.sameSym := rfl
        rw [this, e1] at hsame
        simp at hsame

theorem setSame_cok (s : Mat R) (b : Bool) (h : COk s) : COk { s with sameSym := b } := by
  refine ⟨h.comp, ⟨h.sym.len, h.sym.wf⟩, ?_, h.empty⟩
  obtain ⟨rows, hl⟩ := h.lay
  exact ⟨rows, hl.len, hl.sorted, hl.ap, hl.ai, hl.pos, hl.xlen⟩

/-- A matrix between two rounds. -/
structure Ready (p : Nat × Bool × Bool) (m : Mat R) (started : Bool) : Prop where
  inv : Inv m
  room : Room m
  n : m.n = p.1
  cpx : m.cpx = p.2.1
  crm : m.crm = p.2.2
  zero : ∀ q, (q = true → m.cpx = true) → ∀ r c, entry m q r c = 0
  full : started = true → ∀ l, l < m.n → LinePat m l
  comp : m.compressed = started

theorem new_ready (n : Nat) (cpx crm : Bool) : Ready (n, cpx, crm) (new n cpx crm : Mat R) false := by
  obtain ⟨a, b, c⟩ := new_inv (R := R) n cpx crm
  exact ⟨a, b, rfl, rfl, rfl, fun q _ => c q, by simp, rfl⟩

theorem round_ready {n : Nat} {cpx crm started : Bool} {m : Mat R} (hm : Ready (n, cpx, crm) m started) (ops : List (Op R))
    (hin : ∀ o ∈ ops, InRange n cpx o ∧ IsAdd o) (hfull : started = false → ∀ l, l < n → ∃ o ∈ ops, Touches crm l o) :
    ∃ m1, run m (ops ++ [.finalize]) = some m1 ∧ m1.cpx = cpx ∧
      (∀ im, (im = true → cpx = true) → Represents n m1.ap m1.ai (m1.x im) (byLine crm fun r c => value im r c 0 ops)) ∧
      (m1.sameSym = true → started = true ∧ m1.ap = m.ap ∧ m1.ai = m.ai) ∧
      ∀ b, Ready (n, cpx, crm) (clear { m1 with sameSym := b }) true ∧ (clear { m1 with sameSym := b }).ap = m1.ap ∧
        (clear { m1 with sameSym := b }).ai = m1.ai := by
  have hn : m.n = n := hm.n
  have hx : m.cpx = cpx := hm.cpx
  have hr : m.crm = crm := hm.crm
  have hnc : ∀ o ∈ ops, ¬ IsClear o := by
    intro o ho h
    have := (hin o ho).2
    cases o <;> simp [IsClear, IsAdd] at h this
  have hnf : ∀ o ∈ ops, ¬ IsFinalize o := by
    intro o ho h
    have := (hin o ho).2
    cases o <;> simp [IsFinalize, IsAdd] at h this
  have hin' : ∀ o ∈ ops, InRange m.n m.cpx o := fun o ho => by rw [hn, hx]; exact (hin o ho).1
  obtain ⟨t, e1, i1, r1, sm1, p1, q1⟩ := run_adds m hm.inv hm.room ops hin' hnc
  obtain ⟨t', e1', _, _, _, k1⟩ := run_spec m hm.inv hm.room ops hin' (by
    intro pre post v h
    exact absurd trivial (hnc .clear (by rw [h]; simp)))
  have htt : t' = t := by rw [e1] at e1'; exact (Option.some.inj e1').symm
  subst htt
  obtain ⟨s, e2, i2, r2, sm2, c2, k2, h2⟩ := finalize_spec t' i1 r1
  have sm := sm1.trans sm2
  have hC : COk s := by
    rcases i2.st with h | h
    · exact h
    · exact absurd (h.unc ▸ c2) (by simp)
  have sn : s.n = n := by rw [sm.n, hn]
  have sx : s.cpx = cpx := by rw [sm.cpx, hx]
  have sr : s.crm = crm := by rw [sm.crm, hr]
  have hall : ∀ l, l < s.n → LinePat s l := by
    intro l hl
    have h1 : LinePat t' l := by
      cases hst : started with
      | true => exact p1 l (hm.full hst l (by rw [hn, ← sn]; exact hl))
      | false =>
        obtain ⟨o, ho, ht⟩ := hfull hst l (by rw [← sn]; exact hl)
        exact q1 l ⟨o, ho, by rw [hr]; exact ht⟩
    obtain ⟨k, hk⟩ := h1
    exact ⟨k, h2 _ _ hk⟩
  refine ⟨s, ?_, sx, ?_, ?_, ?_⟩
  · rw [run_append, e1]
    simp only [Option.bind_some, run, step, e2]
  · intro im him
    have := represents_entry s hC im (by rw [sx]; exact him)
    rw [sn, sr] at this
    have heq : entry s im = fun r c => value im r c 0 ops := by
      funext r c
      rw [k2 im (by rw [sm1.cpx, hx]; exact him), k1 im (by rw [hx]; exact him), hm.zero im (by rw [hx]; exact him)]
    rw [heq] at this
    exact this
  · intro hs
    obtain ⟨a, b, c⟩ := finalize_same e2 hs
    obtain ⟨a', b', c'⟩ := run_frame hnf e1 a
    exact ⟨by rw [← hm.comp]; exact a', b.trans b', c.trans c'⟩
  · intro b
    have hCb := setSame_cok s b hC
    obtain ⟨c3, sm3, cc3, ap3, ai3, hsym, re3, ol3, z3⟩ := clear_spec _ hCb i2.real
    have hnn := nnz_ge s hC hall
    refine ⟨⟨⟨.inl c3, re3⟩, ?_, ?_, ?_, ?_, ?_, ?_, cc3⟩, ap3, ai3⟩
    · intro im him
      rw [ol3 im (by rw [← sm3.cpx]; exact him), sm3.n]
      exact hnn
    · exact sm3.n.trans sn
    · exact sm3.cpx.trans sx
    · exact sm3.crm.trans sr
    · intro q hq
      exact z3 q (by rw [← sm3.cpx]; exact hq)
    · intro _ l hl
      obtain ⟨k, mm, hmm, hh⟩ := hall l (by
        have : (clear { s with sameSym := b }).n = s.n := sm3.n
        omega)
      exact ⟨k, mm, by rw [hsym]; exact hmm, hh⟩

end Verif.ExtSolver
