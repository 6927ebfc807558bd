import Verif.Deps.Inv
namespace Verif.Deps
variable {N V : Type} [DecidableEq N]

/-- Outcome of an evaluation under the invariant. -/
structure ROk (zero : V) (path : List N) (s t : St N V) : Prop where
  inv : Inv zero t
  src : SameSrc s t zero
  mono : ∀ m, U s m → U t m
  keep : ∀ m, U s m → find t m = find s m
  frame : ∀ p ∈ path, U t p → U s p
  ex : ∀ m, find s m = none ↔ find t m = none

theorem ROk.refl {zero : V} {path : List N} {s : St N V} (h : Inv zero s) : ROk zero path s s :=
  ⟨h, SameSrc.refl s zero, fun _ h => h, fun _ _ => rfl, fun _ _ h => h, fun _ => Iff.rfl⟩

theorem ROk.trans {zero : V} {path : List N} {s t u : St N V} (h1 : ROk zero path s t) (h2 : ROk zero path t u) :
    ROk zero path s u :=
  ⟨h2.inv, h1.src.trans h2.src, fun m h => h2.mono m (h1.mono m h),
   fun m h => (h2.keep m (h1.mono m h)).trans (h1.keep m h),
   fun p hp h => h1.frame p hp (h2.frame p hp h), fun m => (h1.ex m).trans (h2.ex m)⟩

/-- what reading `n` returns -/
def Got (zero : V) (t : St N V) (n : N) (v : V) : Prop :=
  (find t n = none ∧ v = zero) ∨ ∃ M, find t n = some M ∧ U t n ∧ M.val = v

theorem Got.mono {zero : V} {path : List N} {s t : St N V} (h : ROk zero path s t) {n : N} {v : V}
    (hg : Got zero s n v) : Got zero t n v := by
  rcases hg with ⟨h1, h2⟩ | ⟨M, h1, h2, h3⟩
  · exact .inl ⟨(h.ex n).mp h1, h2⟩
  · exact .inr ⟨M, by rw [h.keep n h2]; exact h1, h.mono n h2, h3⟩

theorem Got.denotes {zero : V} {t : St N V} (hi : Inv zero t) {n : N} {v : V} (hg : Got zero t n v) :
    Denotes zero (abs t zero) n v := by
  rcases hg with ⟨h1, h2⟩ | ⟨M, h1, h2, h3⟩
  · subst h2; exact .absent (abs_defn_none.mpr h1)
  · subst h3; exact hi.den n M h1 h2

/-- every reference of the list has been read -/
def GotRefs (zero : V) (t : St N V) : List (Ref N) → List V → Prop
  | [], [] => True
  | .par p :: rs, v :: vs => v = t.par p ∧ GotRefs zero t rs vs
  | .model n :: rs, v :: vs => Got zero t n v ∧ GotRefs zero t rs vs
  | _, _ => False

theorem GotRefs.denotes {zero : V} {t : St N V} (hi : Inv zero t) :
    ∀ {rs : List (Ref N)} {vs : List V}, GotRefs zero t rs vs → DenotesRefs zero (abs t zero) rs vs
  | [], [], _ => .nil
  | .par p :: rs, v :: vs, h => by
    rw [h.1]; exact .par (GotRefs.denotes hi h.2)
  | .model n :: rs, v :: vs, h => .model (h.1.denotes hi) (GotRefs.denotes hi h.2)

theorem GotRefs.utd {zero : V} {t : St N V} :
    ∀ {rs : List (Ref N)} {vs : List V}, GotRefs zero t rs vs →
      ∀ r, Ref.model r ∈ rs → find t r ≠ none → U t r
  | [], [], _, r, hr, _ => by simp at hr
  | .par p :: rs, v :: vs, h, r, hr, hf => GotRefs.utd h.2 r (by simpa using hr) hf
  | .model n :: rs, v :: vs, h, r, hr, hf => by
    simp only [List.mem_cons, Ref.model.injEq] at hr
    rcases hr with rfl | hr
    · rcases h.1 with ⟨h1, _⟩ | ⟨M, _, h2, _⟩
      · exact absurd h1 hf
      · exact h2
    · exact GotRefs.utd h.2 r hr hf

theorem evalRefs_ok (zero : V) (rd : St N V → N → St N V × Res V) (path : List N)
    (hrd : ∀ s n, Inv zero s → n ∉ path → ROk zero path s (rd s n).1 ∧
      ∀ v, (rd s n).2 = .ok v → Got zero (rd s n).1 n v) :
    ∀ refs s, Inv zero s → ROk zero path s (evalRefs zero rd path s refs).1 ∧
      ∀ vs, (evalRefs zero rd path s refs).2 = .inl vs → GotRefs zero (evalRefs zero rd path s refs).1 refs vs := by
  intro refs
  induction refs with
  | nil =>
    intro s hi
    refine ⟨ROk.refl hi, ?_⟩
    intro vs h
    simp only [evalRefs, Sum.inl.injEq] at h
    subst h; trivial
  | cons r rs ih =>
    intro s hi
    cases r with
    | par p =>
      obtain ⟨h1, h2⟩ := ih s hi
      unfold evalRefs
      cases he : evalRefs zero rd path s rs with
      | mk s' res =>
        rw [he] at h1 h2
        cases res with
        | inr e => exact ⟨h1, fun vs h => by simp at h⟩
        | inl vs' =>
          refine ⟨h1, ?_⟩
          intro vs h
          simp only [Sum.inl.injEq] at h
          subst h
          refine ⟨?_, h2 vs' rfl⟩
          exact (congrFun h1.src.2.1 p).symm
    | model n =>
      simp only [evalRefs]
      cases hf : find s n with
      | none =>
        obtain ⟨h1, h2⟩ := ih s hi
        cases he : evalRefs zero rd path s rs with
        | mk s' res =>
          rw [he] at h1 h2
          cases res with
          | inr e => exact ⟨h1, fun vs h => by simp at h⟩
          | inl vs' =>
            refine ⟨h1, ?_⟩
            intro vs h
            simp only [Sum.inl.injEq] at h
            subst h
            exact ⟨.inl ⟨(h1.ex n).mp hf, rfl⟩, h2 vs' rfl⟩
      | some M =>
        simp only
        by_cases hp : path.contains n = true
        · rw [if_pos hp]
          exact ⟨ROk.refl hi, fun vs h => by simp at h⟩
        · rw [if_neg hp]
          have hnp : n ∉ path := by simpa using hp
          obtain ⟨h1, h2⟩ := hrd s n hi hnp
          cases hr : rd s n with
          | mk s1 res =>
            rw [hr] at h1 h2
            cases res with
            | cyclic => exact ⟨h1, fun vs h => by simp at h⟩
            | fuel => exact ⟨h1, fun vs h => by simp at h⟩
            | ok v =>
              obtain ⟨h3, h4⟩ := ih s1 h1.inv
              cases he : evalRefs zero rd path s1 rs with
              | mk s' res =>
                rw [he] at h3 h4
                simp only [he]
                cases res with
                | inr e => exact ⟨h1.trans h3, fun vs h => by simp at h⟩
                | inl vs' =>
                  refine ⟨h1.trans h3, ?_⟩
                  intro vs h
                  simp only [Sum.inl.injEq] at h
                  subst h
                  exact ⟨(h2 v rfl).mono h3, h4 vs' rfl⟩

/-- Finishing the evaluation of an out-of-date model under the invariant: all flags of others are kept. -/
theorem finish_ok (zero : V) (path : List N) (s : St N V) (n : N) (M : M N V) (v : V) (hi : Inv zero s)
    (hf : find s n = some M) (hn : ¬ U s n) (hpath : n ∉ path) (t : St N V)
    (hk : ∀ m, findKind t m = findKind s m) (hdeps : t.deps = s.deps) (hpar : t.par = s.par)
    (hu : Unique t)
    (hfind : ∀ m, find t m = if m = n then some { M with val := v, utd := true } else find s m)
    (hsol : M.dfn = .sol → v = M.val)
    (hexpr : ∀ refs f, M.dfn = .expr refs f → (∀ r, Ref.model r ∈ refs → find s r ≠ none → r ≠ n → U s r) ∧
       ∃ vs, v = f vs ∧ DenotesRefs zero (abs s zero) refs vs) :
    ROk zero path s t ∧ Got zero t n v := by
  have hft : find t n = some { M with val := v, utd := true } := by rw [hfind, if_pos rfl]
  have hUn : U t n := (U_iff hft).mpr rfl
  have hUo : ∀ m, m ≠ n → (U t m ↔ U s m) := by
    intro m hm; unfold U isUtd; rw [hfind, if_neg hm]
  have hdefn : (abs t zero).defn = (abs s zero).defn := by
    apply defn_eq_of_find hk
    intro m; rw [hfind]; by_cases h : m = n
    · subst h; rw [if_pos rfl, hf]; rfl
    · rw [if_neg h]
  have hsrc : SameSrc s t zero := by
    refine ⟨hdefn, hpar, ?_⟩
    intro m k hmk
    simp only [abs]
    rw [hfind]
    by_cases h : m = n
    · subst h
      rw [if_pos rfl, hf]
      obtain ⟨M', h1, h2, _⟩ := abs_defn_some hmk
      rw [hf] at h1; cases h1
      exact hsol h2
    · rw [if_neg h]
  have hex : ∀ m, find s m = none ↔ find t m = none := by
    intro m; rw [hfind]; by_cases h : m = n
    · subst h; rw [if_pos rfl, hf]; simp
    · rw [if_neg h]
  refine ⟨⟨⟨hu, ?_, ?_, ?_, ?_, ?_⟩, hsrc, ?_, ?_, ?_, hex⟩, .inr ⟨_, hft, hUn, rfl⟩⟩
  · intro m M' hm x hx
    rw [D_congr hdeps]
    rw [hfind] at hm
    by_cases h : m = n
    · subst h; rw [if_pos rfl] at hm; cases hm
      exact hi.reg m M hf x hx
    · rw [if_neg h] at hm; exact hi.reg m M' hm x hx
  · intro m x hd
    rw [D_congr hdeps] at hd
    obtain ⟨M', h1, h2⟩ := hi.noSpur m x hd
    by_cases h : m = n
    · subst h; rw [hf] at h1; cases h1
      exact ⟨_, hft, h2⟩
    · exact ⟨M', by rw [hfind, if_neg h]; exact h1, h2⟩
  · intro m M' refs f hm hd hU r hr hfr
    have hfr' : find s r ≠ none := fun h => hfr ((hex r).mp h)
    by_cases hrn : r = n
    · subst hrn; exact hUn
    rw [hUo r hrn]
    rw [hfind] at hm
    by_cases h : m = n
    · subst h; rw [if_pos rfl] at hm; cases hm
      exact (hexpr refs f hd).1 r hr hfr' hrn
    · rw [if_neg h] at hm
      exact hi.closed m M' refs f hm hd ((hUo m h).mp hU) r hr hfr'
  · intro m M' hm hU
    have tr : ∀ {v'}, Denotes zero (abs s zero) m v' → Denotes zero (abs t zero) m v' :=
      fun h => denotes_congr_src hsrc.1 hsrc.2.1 hsrc.2.2 h
    rw [hfind] at hm
    by_cases h : m = n
    · subst h
      rw [if_pos rfl] at hm; cases hm
      apply tr
      obtain ⟨k, hk'⟩ := abs_defn (zero := zero) hf
      cases hd : M.dfn with
      | sol =>
        rw [hsol hd]
        rw [hd] at hk'
        have := Denotes.sol (zero := zero) hk'
        have hdat : (abs s zero).data m = M.val := by simp [abs, hf]
        rw [hdat] at this; exact this
      | expr refs f =>
        obtain ⟨_, vs, h1, h2⟩ := hexpr refs f hd
        rw [hd] at hk'
        exact .expr hk' h2 h1
    · rw [if_neg h] at hm
      exact tr (hi.den m M' hm ((hUo m h).mp hU))
  · intro m M' refs f hm hd p hp
    apply (hex p).mp
    rw [hfind] at hm
    by_cases h : m = n
    · subst h; rw [if_pos rfl] at hm; cases hm
      exact hi.parSep m M refs f hf hd p hp
    · rw [if_neg h] at hm
      exact hi.parSep m M' refs f hm hd p hp
  · intro m hm
    by_cases h : m = n
    · subst h; exact hUn
    · exact (hUo m h).mpr hm
  · intro m hm
    have : m ≠ n := by rintro rfl; exact hn hm
    rw [hfind, if_neg this]
  · intro p hp hU
    have : p ≠ n := by rintro rfl; exact hpath hp
    exact (hUo p this).mp hU

theorem read_ok (zero : V) : ∀ fuel path (s : St N V) n, Inv zero s → n ∉ path →
    ROk zero path s (read zero fuel path s n).1 ∧
    ∀ v, (read zero fuel path s n).2 = .ok v → Got zero (read zero fuel path s n).1 n v := by
  intro fuel
  induction fuel with
  | zero => intro path s n hi _; exact ⟨ROk.refl hi, fun v h => by simp [read] at h⟩
  | succ fuel ih =>
    intro path s n hi hnp
    unfold read
    cases hf : find s n with
    | none =>
      refine ⟨ROk.refl hi, ?_⟩
      intro v h
      simp only [Res.ok.injEq] at h
      exact .inl ⟨hf, h.symm⟩
    | some M =>
      simp only
      by_cases hutd : M.utd = true
      · rw [if_pos hutd]
        refine ⟨ROk.refl hi, ?_⟩
        intro v h
        simp only [Res.ok.injEq] at h
        exact .inr ⟨M, hf, (U_iff hf).mpr hutd, h⟩
      · rw [if_neg hutd]
        have hnU : ¬ U s n := fun h => hutd ((U_iff hf).mp h)
        cases hd : M.dfn with
        | sol =>
          simp only
          have := finish_ok zero path s n M M.val hi hf hnU hnp (modify s n (fun m => { m with utd := true }))
            (fun m => findKind_modify _ _ _ _) (by simp) (by simp) (unique_modify hi.uniq _ _)
            (by
              intro m; rw [find_modify]
              by_cases h : m = n
              · rw [if_pos h, if_pos h, hf]; rfl
              · rw [if_neg h, if_neg h])
            (fun _ => rfl) (by intro refs f h; rw [hd] at h; cases h)
          refine ⟨this.1, ?_⟩
          intro v h
          simp only [Res.ok.injEq] at h
          subst h; exact this.2
        | expr refs f =>
          simp only
          obtain ⟨h1, h2⟩ := evalRefs_ok zero (read zero fuel (n :: path)) (n :: path)
            (fun s m hi hm => ih (n :: path) s m hi hm) refs s hi
          cases he : evalRefs zero (read zero fuel (n :: path)) (n :: path) s refs with
          | mk s1 res =>
            rw [he] at h1 h2
            have h1' : ROk zero path s s1 :=
              ⟨h1.inv, h1.src, h1.mono, h1.keep, fun p hp => h1.frame p (by simp [hp]), h1.ex⟩
            cases res with
            | inr e =>
              refine ⟨h1', ?_⟩
              intro v hv
              -- an error is never `ok`
              exfalso
              revert hv
              simp only
              intro hv
              subst hv
              -- evalRefs never reports `ok` as an error
              exact absurd he (by
                have key : ∀ (rs : List (Ref N)) (s s' : St N V) v,
                    evalRefs zero (read zero fuel (n :: path)) (n :: path) s rs ≠ (s', .inr (.ok v)) := by
                  intro rs
                  induction rs with
                  | nil => intro s s' v h; simp [evalRefs] at h
                  | cons r rs ihr =>
                    intro s s' v h
                    cases r with
                    | par p =>
                      simp only [evalRefs] at h
                      cases hx : evalRefs zero (read zero fuel (n :: path)) (n :: path) s rs with
                      | mk a b =>
                        rw [hx] at h
                        cases b with
                        | inl _ => simp at h
                        | inr e =>
                          simp only [Prod.mk.injEq, Sum.inr.injEq] at h
                          exact ihr s a v (by rw [hx, h.2])
                    | model m =>
                      simp only [evalRefs] at h
                      cases hfm : find s m with
                      | none =>
                        rw [hfm] at h
                        simp only at h
                        cases hx : evalRefs zero (read zero fuel (n :: path)) (n :: path) s rs with
                        | mk a b =>
                          rw [hx] at h
                          cases b with
                          | inl _ => simp at h
                          | inr e =>
                            simp only [Prod.mk.injEq, Sum.inr.injEq] at h
                            exact ihr s a v (by rw [hx, h.2])
                      | some _ =>
                        rw [hfm] at h
                        simp only at h
                        split at h
                        · simp at h
                        · cases hy : read zero fuel (n :: path) s m with
                          | mk a b =>
                            rw [hy] at h
                            cases b with
                            | cyclic => simp at h
                            | fuel => simp at h
                            | ok w =>
                              simp only at h
                              cases hx : evalRefs zero (read zero fuel (n :: path)) (n :: path) a rs with
                              | mk a' b' =>
                                rw [hx] at h
                                cases b' with
                                | inl _ => simp at h
                                | inr e =>
                                  simp only [Prod.mk.injEq, Sum.inr.injEq] at h
                                  exact ihr a a' v (by rw [hx, h.2])
                exact key _ _ _ _)
            | inl vs =>
              simp only
              have hg := h2 vs rfl
              have hn1 : ¬ U s1 n := fun h => hnU (h1.frame n (by simp) h)
              -- the model object of `n` in `s1`
              have hex : find s1 n ≠ none := fun h => by
                have := (h1.ex n).mpr h; rw [hf] at this; cases this
              obtain ⟨M1, hf1⟩ := Option.ne_none_iff_exists'.mp hex
              have hd1 : M1.dfn = .expr refs f := by
                obtain ⟨k, hk⟩ := abs_defn (zero := zero) hf
                obtain ⟨k1, hk1⟩ := abs_defn (zero := zero) hf1
                rw [h1.src.1, hk] at hk1
                simp only [Option.some.injEq, Prod.mk.injEq] at hk1
                rw [← hk1.2]; exact hd
              have hno : ∀ m, D s1 m n → ¬ U s1 m := by
                intro m hm hU
                obtain ⟨M', h3, h4⟩ := h1.inv.noSpur m n hm
                cases hd' : M'.dfn with
                | sol => rw [hd'] at h4; simp [Dfn.names] at h4
                | expr refs' f' =>
                  rw [hd'] at h4
                  simp only [Dfn.names, List.mem_map] at h4
                  obtain ⟨r, hr, hrn⟩ := h4
                  cases r with
                  | model r =>
                    simp only [Ref.name] at hrn; subst hrn
                    exact hn1 (h1.inv.closed m M' refs' f' h3 hd' hU r hr hex)
                  | par p =>
                    simp only [Ref.name] at hrn; subst hrn
                    exact hex (h1.inv.parSep m M' refs' f' h3 hd' p hr)
              rw [setValues_old _ _ _ hno]
              have := finish_ok zero path s1 n M1 (f vs) h1.inv hf1 hn1 hnp _
                (fun m => findKind_finished s1 n m (f vs)) (by simp [clearUtd]) (by simp [clearUtd])
                (unique_modify (unique_modify (unique_modify h1.inv.uniq _ _) _ _) _ _)
                (by
                  intro m; rw [find_finished]
                  by_cases h : m = n
                  · rw [if_pos h, if_pos h, hf1]; rfl
                  · rw [if_neg h, if_neg h])
                (by intro h; rw [hd1] at h; cases h)
                (by
                  intro refs' f' h
                  rw [hd1] at h; cases h
                  exact ⟨fun r hr hfr _ => hg.utd r hr hfr, vs, rfl, hg.denotes h1.inv⟩)
              refine ⟨h1'.trans this.1, ?_⟩
              intro v h
              simp only [Res.ok.injEq] at h
              subst h; exact this.2

end Verif.Deps
