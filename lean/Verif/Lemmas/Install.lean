import Verif.Spec.Install
import Mathlib.Data.List.Nodup

/-! # Lemmas about `install_features` -/

namespace MC.Install
open MC.Spec

/-- A loop each of whose turns succeeds. -/
theorem each_rule {α : Type} {f : α → Run} {I : St → Prop} {R : St → St → Prop}
    {Q : α → St → Prop} (hrefl : ∀ st, R st st)
    (htrans : ∀ a b c, R a b → R b c → R a c) (hQ : ∀ a s t, Q a s → R s t → Q a t) :
    ∀ as : List α, (∀ a ∈ as, ∀ st, I st → ∃ st', f a st = some (.ok (), st') ∧ I st' ∧
      R st st' ∧ Q a st') → ∀ st, I st →
      ∃ st', each f as st = some (.ok (), st') ∧ I st' ∧ R st st' ∧ ∀ a ∈ as, Q a st' := by
  intro as
  induction as with
  | nil => intro _ st hst; exact ⟨st, rfl, hst, hrefl st, by simp⟩
  | cons a as ih =>
    intro h st hst
    obtain ⟨s1, e1, i1, r1, q1⟩ := h a (by simp) st hst
    obtain ⟨s2, e2, i2, r2, q2⟩ := ih (fun a ha => h a (by simp [ha])) s1 i1
    refine ⟨s2, ?_, i2, htrans _ _ _ r1 r2, ?_⟩
    · simp only [each, e1, e2]
    · intro x hx
      rcases List.mem_cons.mp hx with rfl | hx
      · exact hQ _ _ _ q1 r2
      · exact q2 x hx

variable {T : Table} {rank : String → ℕ}

/-! ### Marking -/

/-- The pending features are known, and so are closed under dependencies except for `X`. -/
structure MarkInv (T : Table) (X : String → Prop) (st : St) : Prop where
  known : ∀ n ∈ st.pending, T n ≠ none
  closed : ∀ n ∈ st.pending, ¬ X n → ∀ f, T n = some f → ∀ d ∈ f.deps, d ∈ st.pending

/-- What marking the features `names` changes. -/
structure MarkRel (T : Table) (N : String → Prop) (st st' : St) : Prop where
  installed : st'.installed = st.installed
  log : st'.log = st.log
  mono : ∀ n ∈ st.pending, n ∈ st'.pending
  only : ∀ n ∈ st'.pending, n ∈ st.pending ∨ N n

theorem MarkRel.refl (N : String → Prop) (st : St) : MarkRel T N st st :=
  ⟨rfl, rfl, fun _ h => h, fun _ h => Or.inl h⟩

theorem MarkRel.trans {N : String → Prop} {a b c : St} (h1 : MarkRel T N a b)
    (h2 : MarkRel T N b c) : MarkRel T N a c :=
  ⟨h2.installed.trans h1.installed, h2.log.trans h1.log, fun n h => h2.mono n (h1.mono n h),
    fun n h => (h2.only n h).elim (fun h => h1.only n h) Or.inr⟩

theorem mark_spec (hA : Acyclic T rank) (hC : Closed T) {N : String → Prop}
    (hN : ∀ n f, N n → T n = some f → ∀ d ∈ f.deps, N d) :
    ∀ fuel n X st, rank n < fuel → T n ≠ none → N n → MarkInv T X st →
      ∃ st', mark T fuel n st = some (.ok (), st') ∧ MarkInv T X st' ∧ MarkRel T N st st' ∧
        n ∈ st'.pending := by
  intro fuel
  induction fuel with
  | zero => intro n X st h; omega
  | succ fuel ih =>
    intro n X st hr hn hNn hi
    unfold mark
    by_cases hp : n ∈ st.pending
    · simp only [hp, if_true]
      exact ⟨st, rfl, hi, .refl _ _, hp⟩
    · simp only [hp, if_false]
      obtain ⟨f, hf⟩ := Option.ne_none_iff_exists'.mp hn
      simp only [hf]
      let st1 : St := { st with pending := n :: st.pending }
      have hi1 : MarkInv T (fun m => X m ∨ m = n) st1 := by
        constructor
        · intro m hm
          rcases List.mem_cons.mp hm with rfl | hm
          · exact hn
          · exact hi.known m hm
        · intro m hm hX g hg d hd
          rcases List.mem_cons.mp hm with rfl | hm
          · exact absurd (Or.inr rfl) hX
          · exact List.mem_cons_of_mem _ (hi.closed m hm (fun h => hX (Or.inl h)) g hg d hd)
      obtain ⟨st', e, i, r, q⟩ := each_rule (f := mark T fuel)
        (I := MarkInv T (fun m => X m ∨ m = n)) (R := MarkRel T N)
        (Q := fun d st => d ∈ st.pending) (MarkRel.refl N) (fun _ _ _ => MarkRel.trans)
        (fun _ _ _ h r => r.mono _ h) f.deps
        (fun d hd st hst => ih d _ st (by have := hA.dep n f hf d hd; omega)
          (hC.dep n f hf d hd) (hN n f hNn hf d hd) hst) st1 hi1
      refine ⟨st', e, ⟨i.known, ?_⟩, ?_, r.mono n (by simp [st1])⟩
      · intro m hm hX g hg d hd
        by_cases hmn : m = n
        · subst hmn
          rw [hf] at hg
          exact q d (Option.some.inj hg ▸ hd)
        · exact i.closed m hm (by simp [hX, hmn]) g hg d hd
      · refine MarkRel.trans (b := st1) ⟨rfl, rfl, fun m hm => List.mem_cons_of_mem _ hm, ?_⟩ r
        intro m hm
        rcases List.mem_cons.mp hm with rfl | hm
        · exact Or.inr hNn
        · exact Or.inl hm

theorem markAll_spec (hA : Acyclic T rank) (hC : Closed T) {N : String → Prop}
    (hN : ∀ n f, N n → T n = some f → ∀ d ∈ f.deps, N d) {fuel : ℕ} {names : List String}
    (h : ∀ n ∈ names, rank n < fuel ∧ T n ≠ none ∧ N n) {st : St}
    (hi : MarkInv T (fun _ => False) st) :
    ∃ st', each (mark T fuel) names st = some (.ok (), st') ∧
      MarkInv T (fun _ => False) st' ∧ MarkRel T N st st' ∧ ∀ n ∈ names, n ∈ st'.pending :=
  each_rule (R := MarkRel T N) (Q := fun d st => d ∈ st.pending) (MarkRel.refl N)
    (fun _ _ _ => MarkRel.trans) (fun _ _ _ h r => r.mono _ h) names
    (fun n hn st hst => mark_spec hA hC hN fuel n _ st (h n hn).1 (h n hn).2.1 (h n hn).2.2 hst)
    st hi

/-! ### Installing -/

/-- The feature of an event. -/
def Event.name : Event → String
  | .start n => n
  | .done n => n

/-- What holds at any call of `install_features`; features that are being installed have at
least rank `b`. -/
structure Inv (T : Table) (rank : String → ℕ) (P : String → Prop) (b : ℕ) (st : St) : Prop where
  known : ∀ n ∈ st.pending, T n ≠ none
  pclosed : ∀ n ∈ st.pending, ∀ f, T n = some f → ∀ d ∈ f.deps, d ∈ st.pending
  within : ∀ n ∈ st.pending, P n
  inst : ∀ n ∈ st.installed, n ∈ st.pending
  done : ∀ n, .done n ∈ st.log ↔ n ∈ st.installed
  begun : ∀ n ∈ st.installed, .start n ∈ st.log
  started : ∀ n, .start n ∈ st.log → n ∈ st.installed ∨ b ≤ rank n
  nodup : st.log.Nodup
  dclosed : ∀ n ∈ st.installed, ∀ f, T n = some f → ∀ d ∈ f.deps, d ∈ st.installed
  sclosed : ∀ n ∈ st.installed, ∀ f subs, T n = some f → f.subs = some subs →
    ∀ d ∈ subs, d ∈ st.installed
  order : ∀ n f, T n = some f → ∀ d ∈ f.deps, Before st.log d n

/-- What installing changes; `H` are features known to be pending. -/
structure Rel (T : Table) (rank : String → ℕ) (H : String → Prop) (b : ℕ) (st st' : St) :
    Prop where
  log : ∃ new, st'.log = st.log ++ new ∧ (∀ e ∈ new, rank e.name < b) ∧
    ∀ pre n post, new = pre ++ .start n :: post → ∀ f, T n = some f → ∀ a ∈ f.after, H a →
      .done a ∈ st.log ++ pre
  mono : ∀ n ∈ st.installed, n ∈ st'.installed
  pmono : ∀ n ∈ st.pending, n ∈ st'.pending
  all : ∀ n ∈ st'.pending, n ∈ st.pending ∨ n ∈ st'.installed

theorem Rel.refl (H : String → Prop) (b : ℕ) (st : St) : Rel T rank H b st st :=
  ⟨⟨[], by simp⟩, fun _ h => h, fun _ h => h, fun _ h => Or.inl h⟩

theorem append_start {a b pre post : List Event} {x : Event} (h : a ++ b = pre ++ x :: post) :
    (∃ c, a = pre ++ x :: c ∧ post = c ++ b) ∨ ∃ c, pre = a ++ c ∧ b = c ++ x :: post := by
  rw [List.append_eq_append_iff] at h
  rcases h with ⟨c, h1, h2⟩ | ⟨c, h1, h2⟩
  · exact Or.inr ⟨c, h1, h2⟩
  · cases c with
    | nil => exact Or.inr ⟨[], by simpa using h1.symm, by simpa using h2.symm⟩
    | cons y c =>
      simp only [List.cons_append, List.cons.injEq] at h2
      obtain ⟨rfl, h2⟩ := h2
      exact Or.inl ⟨c, h1, h2⟩

theorem Rel.trans {H : String → Prop} {b : ℕ} {s1 s2 s3 : St} (h1 : Rel T rank H b s1 s2)
    (h2 : Rel T rank H b s2 s3) : Rel T rank H b s1 s3 := by
  obtain ⟨n1, l1, r1, a1⟩ := h1.log
  obtain ⟨n2, l2, r2, a2⟩ := h2.log
  refine ⟨⟨n1 ++ n2, by rw [l2, l1, List.append_assoc], ?_, ?_⟩, fun n h => h2.mono n (h1.mono n h),
    fun n h => h2.pmono n (h1.pmono n h), ?_⟩
  · intro e he
    rcases List.mem_append.mp he with he | he
    · exact r1 e he
    · exact r2 e he
  · intro pre n post hsplit f hf a ha hH
    rcases append_start hsplit with ⟨c, hc, _⟩ | ⟨c, hc, hc'⟩
    · exact a1 pre n c hc f hf a ha hH
    · have := a2 c n post hc' f hf a ha hH
      rw [hc, ← List.append_assoc, ← l1]
      exact this
  · intro n hn
    rcases h2.all n hn with h | h
    · rcases h1.all n h with h | h
      · exact Or.inl h
      · exact Or.inr (h2.mono n h)
    · exact Or.inr h

theorem Rel.weaken {H : String → Prop} {b b' : ℕ} {s1 s2 : St} (h : Rel T rank H b s1 s2)
    (hb : b ≤ b') : Rel T rank H b' s1 s2 := by
  obtain ⟨n, l, r, a⟩ := h.log
  exact ⟨⟨n, l, fun e he => Nat.lt_of_lt_of_le (r e he) hb, a⟩, h.mono, h.pmono, h.all⟩

variable {P H : String → Prop}

theorem Inv.weaken {b b' : ℕ} {st : St} (h : Inv T rank P b st) (hb : b' ≤ b) :
    Inv T rank P b' st :=
  { h with started := fun n hn => (h.started n hn).imp id (fun h => Nat.le_trans hb h) }

/-- Back to the larger bound after a nested call. -/
theorem Inv.back {b b' : ℕ} {st st' : St} (h : Inv T rank P b st) (h' : Inv T rank P b' st')
    (r : Rel T rank H b' st st') : Inv T rank P b st' := by
  refine { h' with started := ?_ }
  intro n hn
  obtain ⟨new, l, hr, _⟩ := r.log
  rw [l] at hn
  rcases List.mem_append.mp hn with hn' | hn'
  · exact (h.started n hn').imp (r.mono n) id
  · have h1 := hr _ hn'
    rcases h'.started n (by rw [l]; exact hn) with h2 | h2
    · exact Or.inl h2
    · exact absurd h1 (by simp only [Event.name]; omega)

theorem seq_ok {f g : Run} {st st1 : St} (h : f st = some (.ok (), st1)) : seq f g st = g st1 := by
  unfold seq
  rw [h]

/-- The installation of one feature. -/
theorem installOne_spec (hA : Acyclic T rank) (hC : Closed T)
    (hP : ∀ n f, P n → T n = some f → ∀ d ∈ f.deps, P d)
    (hPs : ∀ n f subs, P n → T n = some f → f.subs = some subs → ∀ d ∈ subs, P d)
    {rec : List String → Run} {fuel : ℕ}
    (hrec : ∀ b names st, b < fuel → (∀ n ∈ names, rank n < b ∧ T n ≠ none ∧ P n) →
      (∀ a, H a → a ∈ st.pending) → Inv T rank P b st →
      ∃ st', rec names st = some (.ok (), st') ∧ Inv T rank P b st' ∧ Rel T rank H b st st' ∧
        ∀ n ∈ names, n ∈ st'.installed)
    {b : ℕ} (hb : b ≤ fuel) {n : String} (hn : rank n < b) (hTn : T n ≠ none) (hPn : P n)
    {st : St} (hH : ∀ a, H a → a ∈ st.pending) (hi : Inv T rank P b st)
    (hpn : n ∈ st.pending) :
    ∃ st', installOne T rec n st = some (.ok (), st') ∧ Inv T rank P b st' ∧
      Rel T rank H b st st' ∧ n ∈ st'.installed := by
  unfold installOne
  by_cases hin : n ∈ st.installed
  · simp only [hin, if_true]
    exact ⟨st, rfl, hi, .refl _ _ _, hin⟩
  simp only [hin, if_false]
  obtain ⟨f, hf⟩ := Option.ne_none_iff_exists'.mp hTn
  simp only [hf]
  -- hints
  obtain ⟨s1, e1, ⟨i1, ih1⟩, r1, q1⟩ := each_rule
    (f := fun b st => if b ∉ st.installed ∧ b ∈ st.pending then rec [b] st
      else some (.ok (), st))
    (I := fun st => Inv T rank P (rank n) st ∧ ∀ a, H a → a ∈ st.pending)
    (R := Rel T rank H (rank n)) (Q := fun a st => H a → a ∈ st.installed)
    (Rel.refl H _) (fun _ _ _ => Rel.trans) (fun _ _ _ h r hh => r.mono _ (h hh)) f.after
    (by
      rintro a ha s ⟨hs, hsH⟩
      by_cases hc : a ∉ s.installed ∧ a ∈ s.pending
      · obtain ⟨s', k1, k2, k3, k4⟩ := hrec (rank n) [a] s (by omega) (by
          intro m hm
          rw [List.mem_singleton] at hm
          subst hm
          exact ⟨hA.after n f hf m ha, hs.known m hc.2, hs.within m hc.2⟩) hsH hs
        refine ⟨s', by rw [if_pos hc]; exact k1, ⟨k2, fun a h => k3.pmono a (hsH a h)⟩, k3,
          fun _ => k4 a (by simp)⟩
      · refine ⟨s, by rw [if_neg hc], ⟨hs, hsH⟩, .refl _ _ _, ?_⟩
        intro hHa
        by_contra hni
        exact hc ⟨hni, hsH a hHa⟩)
    st ⟨hi.weaken (Nat.le_of_lt hn), hH⟩
  rw [seq_ok e1]
  -- dependencies
  obtain ⟨s2, e2, ⟨i2, ih2⟩, r2, q2⟩ := each_rule
    (f := fun d st => if d ∉ st.installed then rec [d] st else some (.ok (), st))
    (I := fun st => Inv T rank P (rank n) st ∧ ∀ a, H a → a ∈ st.pending)
    (R := Rel T rank H (rank n)) (Q := fun a st => a ∈ st.installed)
    (Rel.refl H _) (fun _ _ _ => Rel.trans) (fun _ _ _ h r => r.mono _ h) f.deps
    (by
      rintro a ha s ⟨hs, hsH⟩
      by_cases hc : a ∉ s.installed
      · obtain ⟨s', k1, k2, k3, k4⟩ := hrec (rank n) [a] s (by omega) (by
          intro m hm
          rw [List.mem_singleton] at hm
          subst hm
          exact ⟨hA.dep n f hf m ha, hC.dep n f hf m ha, hP n f hPn hf m ha⟩) hsH hs
        exact ⟨s', by rw [if_pos hc]; exact k1, ⟨k2, fun a h => k3.pmono a (hsH a h)⟩, k3,
          k4 a (by simp)⟩
      · exact ⟨s, by rw [if_neg hc], ⟨hs, hsH⟩, .refl _ _ _, not_not.mp hc⟩)
    s1 ⟨i1, ih1⟩
  rw [seq_ok e2]
  have r12 := r1.trans r2
  have hi2 : Inv T rank P b s2 := hi.back i2 r12
  have fresh2 : ∀ e : Event, e.name = n → e ∉ st.log → e ∉ s2.log := by
    intro e he hne hm
    obtain ⟨new, l, hr, _⟩ := r12.log
    rw [l] at hm
    rcases List.mem_append.mp hm with hm | hm
    · exact hne hm
    · have := hr e hm
      rw [he] at this
      omega
  have hns : Event.start n ∉ st.log := by
    intro h
    rcases hi.started n h with h | h
    · exact hin h
    · omega
  have hnd : Event.done n ∉ st.log := fun h => hin ((hi.done n).mp h)
  have hns2 := fresh2 (.start n) rfl hns
  have hnd2 := fresh2 (.done n) rfl hnd
  have hin2 : n ∉ s2.installed := fun h => hnd2 ((i2.done n).mpr h)
  -- start
  let s3 : St := { s2 with log := s2.log ++ [.start n] }
  have e3 : (fun st : St => (some (.ok (), { st with log := st.log ++ [.start n] }) :
      Option (Except Raise Unit × St))) s2 = some (.ok (), s3) := rfl
  rw [seq_ok e3]
  have i3 : Inv T rank P (rank n) s3 := by
    refine { i2 with done := ?_, begun := ?_, started := ?_, nodup := ?_, order := ?_ }
    · intro m
      rw [← i2.done m]
      simp [s3]
    · intro m hm
      exact List.mem_append_left _ (i2.begun m hm)
    · intro m hm
      rcases List.mem_append.mp hm with hm | hm
      · exact i2.started m hm
      · simp only [List.mem_singleton, Event.start.injEq] at hm
        exact Or.inr (Nat.le_of_eq (by rw [hm]))
    · rw [List.nodup_append]
      refine ⟨i2.nodup, by simp, ?_⟩
      rintro x hx y hy rfl
      rw [List.mem_singleton] at hy
      exact hns2 (hy ▸ hx)
    · intro m g hg d hd pre post hsplit
      rcases append_start hsplit with ⟨c, hc, _⟩ | ⟨c, hc, hc'⟩
      · exact i2.order m g hg d hd pre c hc
      · have : c = [] ∧ m = n := by
          cases c with
          | nil =>
            have := (List.cons.inj hc').1
            simp only [Event.start.injEq] at this
            exact ⟨rfl, this.symm⟩
          | cons y c => simp at hc'
        obtain ⟨rfl, rfl⟩ := this
        rw [hf] at hg
        obtain rfl := Option.some.inj hg
        rw [hc, List.append_nil]
        exact (i2.done d).mpr (q2 d hd)
  have r3 : Rel T rank H b s2 s3 := by
    refine ⟨⟨[.start n], rfl, ?_, ?_⟩, fun _ h => h, fun _ h => h, fun _ h => Or.inl h⟩
    · intro e he
      rw [List.mem_singleton] at he
      rw [he]
      exact hn
    · intro pre m post hsplit g hg a ha hHa
      have : pre = [] ∧ m = n := by
        cases pre with
        | nil => simpa using (List.cons.inj hsplit).1.symm
        | cons y c => simp at hsplit
      obtain ⟨rfl, rfl⟩ := this
      rw [hf] at hg
      obtain rfl := Option.some.inj hg
      rw [List.append_nil, i2.done]
      exact r2.mono a (q1 a ha hHa)
  -- members
  have h4 : ∃ s4, runSubs rec f s3 = some (.ok (), s4) ∧ Inv T rank P (rank n) s4 ∧
      Rel T rank H (rank n) s3 s4 ∧
      ∀ subs, f.subs = some subs → ∀ d ∈ subs, d ∈ s4.installed := by
    unfold runSubs
    cases hsub : f.subs with
    | none => exact ⟨s3, rfl, i3, .refl _ _ _, by simp⟩
    | some subs =>
      obtain ⟨s4, k1, k2, k3, k4⟩ := hrec (rank n) subs s3 (by omega)
        (fun m hm => ⟨hA.sub n f subs hf hsub m hm, hC.sub n f subs hf hsub m hm,
          hPs n f subs hPn hf hsub m hm⟩) ih2 i3
      refine ⟨s4, k1, k2, k3, ?_⟩
      intro subs' h'
      rw [← Option.some.inj h']
      exact k4
  obtain ⟨s4, e4, i4, r4, q4⟩ := h4
  rw [seq_ok e4]
  have hnd4 : Event.done n ∉ s4.log := by
    intro hm
    obtain ⟨new, l, hr, _⟩ := r4.log
    rw [l] at hm
    rcases List.mem_append.mp hm with hm | hm
    · rcases List.mem_append.mp hm with hm | hm
      · exact hnd2 hm
      · simp at hm
    · have := hr _ hm
      simp only [Event.name] at this
      omega
  have hs4 : Event.start n ∈ s4.log := by
    obtain ⟨new, l, _⟩ := r4.log
    rw [l]
    simp [s3]
  refine ⟨_, rfl, ?_, ?_, by simp⟩
  · constructor
    · exact i4.known
    · exact i4.pclosed
    · exact i4.within
    · intro m hm
      rcases List.mem_cons.mp hm with rfl | hm
      · exact r4.pmono _ (r2.pmono _ (r1.pmono _ hpn))
      · exact i4.inst m hm
    · intro m
      simp only [List.mem_append, i4.done m, Event.done.injEq, List.mem_cons, List.not_mem_nil,
        or_false]
      exact or_comm
    · intro m hm
      refine List.mem_append_left _ ?_
      rcases List.mem_cons.mp hm with rfl | hm
      · exact hs4
      · exact i4.begun m hm
    · intro m hm
      have hm4 : Event.start m ∈ s4.log := by
        rcases List.mem_append.mp hm with hm | hm
        · exact hm
        · simp at hm
      obtain ⟨new, l, hr, _⟩ := r4.log
      by_cases hmn : m = n
      · exact Or.inl (by simp [hmn])
      · rw [l] at hm4
        rcases List.mem_append.mp hm4 with h | h
        · rcases List.mem_append.mp h with h | h
          · rcases hi2.started m h with h | h
            · exact Or.inl (List.mem_cons_of_mem _ (r4.mono m h))
            · exact Or.inr h
          · simp only [List.mem_singleton, Event.start.injEq] at h
            exact absurd h hmn
        · have h1 := hr _ h
          simp only [Event.name] at h1
          rcases i4.started m (by rw [l]; exact List.mem_append_right _ h) with h | h
          · exact Or.inl (List.mem_cons_of_mem _ h)
          · omega
    · rw [List.nodup_append]
      refine ⟨i4.nodup, by simp, ?_⟩
      rintro x hx y hy rfl
      rw [List.mem_singleton] at hy
      exact hnd4 (hy ▸ hx)
    · intro m hm g hg d hd
      rcases List.mem_cons.mp hm with rfl | hm
      · rw [hf] at hg
        obtain rfl := Option.some.inj hg
        exact List.mem_cons_of_mem _ (r4.mono d (q2 d hd))
      · exact List.mem_cons_of_mem _ (i4.dclosed m hm g hg d hd)
    · intro m hm g subs hg hsub d hd
      rcases List.mem_cons.mp hm with rfl | hm
      · rw [hf] at hg
        obtain rfl := Option.some.inj hg
        exact List.mem_cons_of_mem _ (q4 subs hsub d hd)
      · exact List.mem_cons_of_mem _ (i4.sclosed m hm g subs hg hsub d hd)
    · intro m g hg d hd pre post hsplit
      rcases append_start hsplit with ⟨c, hc, _⟩ | ⟨c, hc, hc'⟩
      · exact i4.order m g hg d hd pre c hc
      · cases c with
        | nil => simp at hc'
        | cons y c => simp at hc'
  · refine ((r12.weaken (Nat.le_of_lt hn)).trans r3).trans ((r4.weaken (Nat.le_of_lt hn)).trans ?_)
    refine ⟨⟨[.done n], rfl, ?_, ?_⟩, fun _ h => List.mem_cons_of_mem _ h, fun _ h => h,
      fun _ h => Or.inl h⟩
    · intro e he
      rw [List.mem_singleton] at he
      rw [he]
      exact hn
    · intro pre m post hsplit
      cases pre with
      | nil => simp at hsplit
      | cons y c => simp at hsplit

/-- The second loop of `install_features`. -/
theorem installLoop_spec (hA : Acyclic T rank) (hC : Closed T)
    (hP : ∀ n f, P n → T n = some f → ∀ d ∈ f.deps, P d)
    (hPs : ∀ n f subs, P n → T n = some f → f.subs = some subs → ∀ d ∈ subs, P d)
    {rec : List String → Run} {fuel : ℕ}
    (hrec : ∀ b names st, b < fuel → (∀ n ∈ names, rank n < b ∧ T n ≠ none ∧ P n) →
      (∀ a, H a → a ∈ st.pending) → Inv T rank P b st →
      ∃ st', rec names st = some (.ok (), st') ∧ Inv T rank P b st' ∧ Rel T rank H b st st' ∧
        ∀ n ∈ names, n ∈ st'.installed)
    {b : ℕ} (hb : b ≤ fuel) {names : List String}
    (hn : ∀ n ∈ names, rank n < b ∧ T n ≠ none ∧ P n)
    {st : St} (hH : ∀ a, H a → a ∈ st.pending) (hi : Inv T rank P b st)
    (hpn : ∀ n ∈ names, n ∈ st.pending) :
    ∃ st', each (installOne T rec) names st = some (.ok (), st') ∧ Inv T rank P b st' ∧
      Rel T rank H b st st' ∧ ∀ n ∈ names, n ∈ st'.installed := by
  obtain ⟨st', e, ⟨i, _⟩, r, q⟩ := each_rule (f := installOne T rec)
    (I := fun s => Inv T rank P b s ∧ (∀ a, H a → a ∈ s.pending) ∧ ∀ n ∈ names, n ∈ s.pending)
    (R := Rel T rank H b) (Q := fun n s => n ∈ s.installed) (Rel.refl H b)
    (fun _ _ _ => Rel.trans) (fun _ _ _ h r => r.mono _ h) names
    (by
      rintro n hnm s ⟨hs, hsH, hsp⟩
      obtain ⟨h1, h2, h3⟩ := hn n hnm
      obtain ⟨s', k1, k2, k3, k4⟩ := installOne_spec hA hC hP hPs hrec hb h1 h2 h3 hsH hs
        (hsp n hnm)
      exact ⟨s', k1, ⟨k2, fun a h => k3.pmono a (hsH a h), fun m h => k3.pmono m (hsp m h)⟩,
        k3, k4⟩)
    st ⟨hi, hH, hpn⟩
  exact ⟨st', e, i, r, q⟩

theorem needed_directly {names : List String} {S : String → Prop}
    (h : ∀ n ∈ names, S n) (hS : ∀ n f, S n → T n = some f → ∀ d ∈ f.deps, S d) {n : String}
    (hn : NeededDirectly T names n) : S n := by
  induction hn with
  | named hm => exact h _ hm
  | dep _ hf hm ih => exact hS _ _ ih hf _ hm

/-- The first loop keeps the invariant. -/
theorem Inv.marked {b : ℕ} {st st' : St} (hi : Inv T rank P b st)
    (hm : MarkInv T (fun _ => False) st') {N : String → Prop} (r : MarkRel T N st st')
    (hN : ∀ n, N n → P n) : Inv T rank P b st' where
  known := hm.known
  pclosed := fun n hn f hf d hd => hm.closed n hn (fun h => h) f hf d hd
  within := fun n hn => (r.only n hn).elim (hi.within n) (hN n)
  inst := fun n hn => r.mono n (hi.inst n (r.installed ▸ hn))
  done := by intro n; rw [r.log, r.installed]; exact hi.done n
  begun := by intro n; rw [r.log, r.installed]; exact hi.begun n
  started := by intro n; rw [r.log, r.installed]; exact hi.started n
  nodup := by rw [r.log]; exact hi.nodup
  dclosed := by rw [r.installed]; exact hi.dclosed
  sclosed := by rw [r.installed]; exact hi.sclosed
  order := by rw [r.log]; exact hi.order

/-- `install_features` succeeds and keeps the invariant. -/
theorem install_spec (hA : Acyclic T rank) (hC : Closed T)
    (hP : ∀ n f, P n → T n = some f → ∀ d ∈ f.deps, P d)
    (hPs : ∀ n f subs, P n → T n = some f → f.subs = some subs → ∀ d ∈ subs, P d) :
    ∀ fuel b names st, b < fuel → (∀ n ∈ names, rank n < b ∧ T n ≠ none ∧ P n) →
      (∀ a, H a → a ∈ st.pending) → Inv T rank P b st →
      ∃ st', install T fuel names st = some (.ok (), st') ∧ Inv T rank P b st' ∧
        Rel T rank H b st st' ∧ ∀ n ∈ names, n ∈ st'.installed := by
  intro fuel
  induction fuel with
  | zero => intro b names st h; omega
  | succ fuel ih =>
    intro b names st hb hn hH hi
    obtain ⟨s1, e1, i1, r1, q1⟩ := markAll_spec hA hC (N := NeededDirectly T names)
      (fun n f h hf d hd => .dep h hf hd) (fuel := fuel + 1) (names := names)
      (fun n hm => ⟨by have := (hn n hm).1; omega, (hn n hm).2.1, .named hm⟩)
      (st := st) ⟨hi.known, fun n h _ => hi.pclosed n h⟩
    have hi1 : Inv T rank P b s1 := hi.marked i1 r1
      (fun n h => needed_directly (fun m hm => (hn m hm).2.2) hP h)
    obtain ⟨s2, e2, i2, r2, q2⟩ := installLoop_spec (H := H) hA hC hP hPs ih (by omega) hn
      (fun a h => r1.mono a (hH a h)) hi1 q1
    refine ⟨s2, ?_, i2, ?_, q2⟩
    · rw [install, seq_ok e1, e2]
    · obtain ⟨new, l, hr, ha⟩ := r2.log
      refine ⟨⟨new, by rw [l, r1.log], hr, by rw [← r1.log]; exact ha⟩,
        fun n h => r2.mono n (r1.installed.symm ▸ h), fun n h => r2.pmono n (r1.mono n h), ?_⟩
      intro n hn'
      rcases r2.all n hn' with h | h
      · rcases r1.only n h with h | h
        · exact Or.inl h
        · exact Or.inr (needed_directly q2 (fun n f hS hf d hd => i2.dclosed n hS f hf d hd) h)
      · exact Or.inr h

end MC.Install
