import Verif.Spec.Dispatch

/-!
# C123 — events of connections
-/

namespace Verif.Dispatch

open DispatchSpec

variable {C : Type}

private theorem accepted_get (m : Dict Nat C) (l : List (Nat × C)) (fd : Nat) (h : ∀ p ∈ l, p.1 ≠ fd) :
    (accepted m l).get? fd = m.get? fd := by
  unfold accepted
  induction l generalizing m with
  | nil => rfl
  | cons p l ih =>
    rw [List.foldl_cons, ih _ (fun q hq => h q (by simp [hq])), Dict.get?_insert_ne _ (Ne.symm (h p (by simp)))]

private theorem store_self (m : Dict Nat C) (fd : Nat) (r : Res C) (h : ∀ p ∈ r.new, p.1 ≠ fd) :
    (store m fd r).get? fd = if r.isOpen then some r.obj else none := by
  unfold store
  rw [accepted_get _ _ _ h]
  split <;> simp

private theorem store_ne (m : Dict Nat C) {fd g : Nat} (r : Res C) (h : ∀ p ∈ r.new, p.1 ≠ fd) (hg : fd ≠ g) :
    (store m g r).get? fd = m.get? fd := by
  unfold store
  rw [accepted_get _ _ _ h]
  split
  · exact Dict.get?_insert_ne _ hg _
  · exact Dict.get?_erase_ne _ hg

private theorem next_self (m : Dict Nat C) (fd : Nat) (r r' : Res C) (h : ∀ p ∈ r'.new, p.1 ≠ fd)
    (hm : r.isOpen = false → m.get? fd = none) :
    (next m fd r r').get? fd = if r.isOpen && r'.isOpen then some r'.obj else none := by
  unfold next
  cases ho : r.isOpen with
  | true => simp only [if_true, Bool.true_and]; exact store_self m fd r' h
  | false => simp only [Bool.false_and]; rw [if_neg (by simp), accepted_get _ _ _ h, hm ho]; simp

private theorem next_ne (m : Dict Nat C) {fd g : Nat} (r r' : Res C) (h : ∀ p ∈ r'.new, p.1 ≠ fd) (hg : fd ≠ g) :
    (next m g r r').get? fd = m.get? fd := by
  unfold next
  split
  · exact store_ne m r' h hg
  · exact accepted_get _ _ _ h

/-- Handlers that end no program and open no connection `fd`. -/
private def Good (env : Env C) (h : C → Res C) (fd : Nat) : Prop :=
  (∀ c, (h c).out ≠ .exit) ∧ (∀ c, (env.error c).out = .ok) ∧ (∀ c, ∀ p ∈ (h c).new, p.1 ≠ fd) ∧
  ∀ c, ∀ p ∈ (env.error c).new, p.1 ≠ fd

private theorem guarded_calm (env : Env C) (h : C → Res C) (fd : Nat) (hg : Good env h fd) (m : Dict Nat C) (g : Nat) (c : C) :
    (guarded env h m g c).2 = false := by
  unfold guarded
  split
  · rfl
  · rename_i he; exact absurd he (hg.1 c)
  · simp [hg.2.1]

private theorem guarded_get (env : Env C) (h : C → Res C) (fd : Nat) (hg : Good env h fd) (m : Dict Nat C) (g : Nat) (c : C) :
    (fd ≠ g → (guarded env h m g c).1.get? fd = m.get? fd) ∧
    (fd = g → (guarded env h m g c).1.get? fd = event env h true (some c)) := by
  obtain ⟨h1, h2, h3, h4⟩ := hg
  unfold guarded
  constructor
  · intro hne
    split
    · exact store_ne m _ (h3 c) hne
    · exact store_ne m _ (h3 c) hne
    · rw [next_ne _ _ _ (h4 _) hne, store_ne m _ (h3 c) hne]
  · rintro rfl
    unfold event
    simp only [if_true]
    split
    · rename_i ho; rw [if_pos ho]; exact store_self m fd _ (h3 c)
    · rename_i he; exact absurd he (h1 c)
    · rename_i ho _
      rw [if_neg ho]
      exact next_self _ fd _ _ (h4 _) (fun hc => by rw [store_self m fd _ (h3 c), hc]; rfl)

private theorem phase_get (env : Env C) (h : C → Res C) (fd : Nat) (hg : Good env h fd) (l : List Nat) (hn : l.Nodup) (m : Dict Nat C) :
    (phase env h l m).2 = false ∧ (phase env h l m).1.get? fd = event env h (decide (fd ∈ l)) (m.get? fd) := by
  induction l generalizing m with
  | nil => exact ⟨rfl, by simp only [phase, List.not_mem_nil, decide_false]; unfold event; cases m.get? fd <;> rfl⟩
  | cons g l ih =>
    obtain ⟨hgl, hnl⟩ := List.nodup_cons.1 hn
    unfold phase
    cases hm : m.get? g with
    | none =>
      dsimp only
      obtain ⟨i1, i2⟩ := ih hnl m
      refine ⟨i1, ?_⟩
      rw [i2]
      by_cases e : fd = g
      · subst e; rw [hm]; rfl
      · simp [e]
    | some c =>
      dsimp only
      rw [guarded_calm env h fd hg m g c]
      simp only [Bool.false_eq_true, if_false]
      obtain ⟨i1, i2⟩ := ih hnl (guarded env h m g c).1
      refine ⟨i1, ?_⟩
      rw [i2]
      by_cases e : fd = g
      · subst e
        rw [(guarded_get env h fd hg m fd c).2 rfl, hm]
        simp only [hgl, decide_false, List.mem_cons, true_or, decide_true]
        generalize event env h true (some c) = x
        cases x <;> simp [event]
      · rw [(guarded_get env h fd hg m g c).1 e]
        simp [e]

private theorem good_of (env : Env C) (fd : Nat) (hc : Calm env) (hf : Free env fd) :
    Good env env.read fd ∧ Good env env.write fd ∧ Good env env.expt fd ∧ ∀ c, ∀ p ∈ (env.close c).new, p.1 ≠ fd := by
  refine ⟨⟨fun c => (hc.1 c).1, hc.2, fun c p h => hf c p (by simp [h]), fun c p h => hf c p (by simp [h])⟩,
    ⟨fun c => (hc.1 c).2.1, hc.2, fun c p h => hf c p (by simp [h]), fun c p h => hf c p (by simp [h])⟩,
    ⟨fun c => (hc.1 c).2.2.1, hc.2, fun c p h => hf c p (by simp [h]), fun c p h => hf c p (by simp [h])⟩,
    fun c p h => hf c p (by simp [h])⟩

/-- With `select`: what becomes of a connection depends on its own state and on whether it is ready itself, whatever other
connections do, also if they are closed or raise exceptions. Nothing leaves the pass. -/
theorem C123_alone (env : Env C) (hc : Calm env) (fd : Nat) (hf : Free env fd) (a : Asked) (hr : a.r.Nodup) (hw : a.w.Nodup)
    (he : a.e.Nodup) (m : Dict Nat C) :
    (serve env a m).2 = false ∧
    ∀ c, m.get? fd = some c →
      (serve env a m).1.get? fd = alone env (decide (fd ∈ a.r)) (decide (fd ∈ a.w)) (decide (fd ∈ a.e)) c := by
  obtain ⟨g1, g2, g3, _⟩ := good_of env fd hc hf
  obtain ⟨r1, r2⟩ := phase_get env env.read fd g1 a.r hr m
  obtain ⟨w1, w2⟩ := phase_get env env.write fd g2 a.w hw (phase env env.read a.r m).1
  obtain ⟨e1, e2⟩ := phase_get env env.expt fd g3 a.e he (phase env env.write a.w (phase env env.read a.r m).1).1
  unfold serve
  dsimp only
  rw [r1]
  simp only [Bool.false_eq_true, if_false]
  rw [w1]
  simp only [Bool.false_eq_true, if_false]
  refine ⟨e1, fun c hm => ?_⟩
  rw [e2, w2, r2, hm]
  rfl

private theorem readwrite_ne (env : Env C) (f : Flags) (m : Dict Nat C) {fd g : Nat} (c : C) (hf : Free env fd) (hg : fd ≠ g) :
    (readwrite env f m g c).1.get? fd = m.get? fd := by
  have fc : ∀ c, ∀ p ∈ (env.close c).new, p.1 ≠ fd := fun c p h => hf c p (by simp [h])
  have fe : ∀ c, ∀ p ∈ (env.error c).new, p.1 ≠ fd := fun c p h => hf c p (by simp [h])
  have hch : ∀ (hs : List (C → Res C)) (m : Dict Nat C) (r : Res C), (∀ h ∈ hs, ∀ c, ∀ p ∈ (h c).new, p.1 ≠ fd) →
      (chain hs m g r).1.get? fd = m.get? fd := by
    intro hs
    induction hs with
    | nil => intro m r _; rfl
    | cons h hs ih =>
      intro m r hh
      unfold chain
      dsimp only
      have h0 := next_ne m r (h r.obj) (hh h (by simp) r.obj) hg
      split
      · rw [ih _ _ (fun h' hm => hh h' (by simp [hm])), h0]
      · exact h0
  have hx := hch (handlers env f) m ⟨c, true, [], .ok⟩ (by
    intro h hm c p hp
    unfold handlers at hm
    simp only [List.mem_append, List.mem_ite_nil_right, List.mem_singleton] at hm
    rcases hm with ((⟨_, rfl⟩ | ⟨_, rfl⟩) | ⟨_, rfl⟩) | ⟨_, rfl⟩ <;> exact hf c p (by simp [hp]))
  unfold readwrite
  dsimp only
  split
  · exact hx
  · exact hx
  · split
    · rw [next_ne _ _ _ (fc _) hg, hx]
    · rw [next_ne _ _ _ (fe _) hg, hx]
  · rw [next_ne _ _ _ (fe _) hg, hx]

private theorem readwrite_calm (env : Env C) (hc : Calm env) (f : Flags) (m : Dict Nat C) (g : Nat) (c : C) :
    (readwrite env f m g c).2 = false := by
  have hch : ∀ (hs : List (C → Res C)) (m : Dict Nat C) (r : Res C), r.out ≠ .exit → (∀ h ∈ hs, ∀ c, (h c).out ≠ .exit) →
      (chain hs m g r).2.out ≠ .exit := by
    intro hs
    induction hs with
    | nil => intro m r hr _; exact hr
    | cons h hs ih =>
      intro m r _ hh
      unfold chain
      dsimp only
      split
      · exact ih _ _ (by simp) (fun h' hm => hh h' (by simp [hm]))
      · exact hh h (by simp) r.obj
  have hx := hch (handlers env f) m ⟨c, true, [], .ok⟩ (by simp) (by
    intro h hm c
    unfold handlers at hm
    simp only [List.mem_append, List.mem_ite_nil_right, List.mem_singleton] at hm
    rcases hm with ((⟨_, rfl⟩ | ⟨_, rfl⟩) | ⟨_, rfl⟩) | ⟨_, rfl⟩
    · exact (hc.1 c).1
    · exact (hc.1 c).2.1
    · exact (hc.1 c).2.2.1
    · rw [(hc.1 c).2.2.2]; simp)
  unfold readwrite
  dsimp only
  split
  · rfl
  · rename_i h; exact absurd h hx
  · split
    · simp [(hc.1 _).2.2.2]
    · simp [hc.2]
  · simp [hc.2]

private theorem chain_eq (fd : Nat) (hs : List (C → Res C)) (m : Dict Nat C) (c : C) (o : Bool)
    (hh : ∀ h ∈ hs, ∀ c, ∀ p ∈ (h c).new, p.1 ≠ fd) (hm : m.get? fd = if o then some c else none) :
    (chain hs m fd ⟨c, o, [], .ok⟩).2 = ⟨(series hs c o).1, (series hs c o).2.1, [], (series hs c o).2.2⟩ ∧
    (chain hs m fd ⟨c, o, [], .ok⟩).1.get? fd = if (series hs c o).2.1 then some (series hs c o).1 else none := by
  induction hs generalizing m c o with
  | nil => exact ⟨rfl, hm⟩
  | cons h hs ih =>
    have h0 := next_self m fd ⟨c, o, [], .ok⟩ (h c) (hh h (by simp) c) (fun ho => by rw [hm]; simp only at ho; rw [ho]; rfl)
    unfold chain series
    dsimp only at h0 ⊢
    split
    · exact ih _ _ _ (fun h' hm' => hh h' (by simp [hm'])) h0
    · exact ⟨rfl, h0⟩

/-- What `readwrite` makes of a connection. -/
theorem C123_reported (env : Env C) (f : Flags) (fd : Nat) (hf : Free env fd) (m : Dict Nat C) (c : C) (hm : m.get? fd = some c) :
    (readwrite env f m fd c).1.get? fd = reported env f c := by
  have fc : ∀ c, ∀ p ∈ (env.close c).new, p.1 ≠ fd := fun c p h => hf c p (by simp [h])
  have fe : ∀ c, ∀ p ∈ (env.error c).new, p.1 ≠ fd := fun c p h => hf c p (by simp [h])
  have hl : handlers env f =
      ([(f.inn, env.read), (f.out, env.write), (f.pri, env.expt), (f.bad, env.close)].filter Prod.fst).map Prod.snd := by
    obtain ⟨i, o, p, b⟩ := f
    cases i <;> cases o <;> cases p <;> cases b <;> rfl
  obtain ⟨h1, h2⟩ := chain_eq fd (handlers env f) m c true (by
    intro h hm c p hp
    unfold handlers at hm
    simp only [List.mem_append, List.mem_ite_nil_right, List.mem_singleton] at hm
    rcases hm with ((⟨_, rfl⟩ | ⟨_, rfl⟩) | ⟨_, rfl⟩) | ⟨_, rfl⟩ <;> exact hf c p (by simp [hp])) (by simpa using hm)
  have hd : ∀ e : Int, e ∈ disconnected ↔ (e = 104 ∨ e = 107 ∨ e = 108 ∨ e = 103 ∨ e = 32 ∨ e = 9) := by
    intro e; simp [disconnected]
  unfold readwrite reported
  dsimp only
  rw [← hl]
  generalize series (handlers env f) c true = x at h1 h2 ⊢
  obtain ⟨d, o, out⟩ := x
  dsimp only at h1 h2 ⊢
  rw [h1]
  dsimp only
  have hcl : ∀ r' : Res C, (∀ p ∈ r'.new, p.1 ≠ fd) →
      (next (chain (handlers env f) m fd ⟨c, true, [], .ok⟩).1 fd ⟨d, o, [], out⟩ r').get? fd = if o && r'.isOpen then some r'.obj else none :=
    fun r' hr' => next_self _ fd ⟨d, o, [], out⟩ r' hr' (fun ho => by rw [h2]; simp only at ho; rw [ho]; rfl)
  cases out with
  | ok => dsimp only; rw [h2]; simp
  | exit => dsimp only; rw [h2]; simp
  | other => exact hcl _ (fe _)
  | os e =>
    dsimp only
    by_cases he : e ∈ disconnected
    · have he' := (hd e).1 he
      simp only [if_pos he, if_pos he']; exact hcl _ (fc _)
    · have he' := fun h => he ((hd e).2 h)
      simp only [if_neg he, if_neg he']; exact hcl _ (fe _)

/-- With `poll`, too: a connection that is not reported is untouched; what becomes of one that is reported depends on its
state and the events reported for it only. Nothing leaves the pass. -/
theorem C123_alone_poll (env : Env C) (hc : Calm env) (fd : Nat) (hf : Free env fd) (l : List (Nat × Flags))
    (hn : (l.map Prod.fst).Nodup) (m : Dict Nat C) (c : C) (hm : m.get? fd = some c) :
    (serve2 env l m).2 = false ∧
    (fd ∉ l.map Prod.fst → (serve2 env l m).1.get? fd = some c) ∧
    (∀ f, (fd, f) ∈ l → (serve2 env l m).1.get? fd = reported env f c) := by
  have frame : ∀ (l : List (Nat × Flags)) (m : Dict Nat C), fd ∉ l.map Prod.fst →
      (serve2 env l m).2 = false ∧ (serve2 env l m).1.get? fd = m.get? fd := by
    intro l
    induction l with
    | nil => intro m _; exact ⟨rfl, rfl⟩
    | cons p l ih =>
      intro m hl
      obtain ⟨g, f⟩ := p
      simp only [List.map_cons, List.mem_cons, not_or] at hl
      unfold serve2
      cases hg : m.get? g with
      | none => exact ih m hl.2
      | some d =>
        dsimp only
        rw [readwrite_calm env hc f m g d]
        simp only [Bool.false_eq_true, if_false]
        obtain ⟨i1, i2⟩ := ih (readwrite env f m g d).1 hl.2
        exact ⟨i1, by rw [i2, readwrite_ne env f m d hf hl.1]⟩
  have main : ∀ (l : List (Nat × Flags)) (m : Dict Nat C), (l.map Prod.fst).Nodup → m.get? fd = some c → ∀ f, (fd, f) ∈ l →
      (serve2 env l m).2 = false ∧
      ∃ m', m'.get? fd = some c ∧ (serve2 env l m).1.get? fd = (readwrite env f m' fd c).1.get? fd := by
    intro l
    induction l with
    | nil => intro m _ _ f h; simp at h
    | cons p l ih =>
      intro m hn hm f h
      obtain ⟨g, f'⟩ := p
      simp only [List.map_cons, List.nodup_cons] at hn
      unfold serve2
      rcases List.mem_cons.1 h with h | h
      · cases h
        rw [hm]
        dsimp only
        rw [readwrite_calm env hc f m fd c]
        simp only [Bool.false_eq_true, if_false]
        obtain ⟨i1, i2⟩ := frame l (readwrite env f m fd c).1 hn.1
        exact ⟨i1, m, hm, i2⟩
      · have hne : fd ≠ g := fun e => hn.1 (e ▸ List.mem_map.2 ⟨(fd, f), h, rfl⟩)
        cases hg : m.get? g with
        | none => exact ih m hn.2 hm f h
        | some d =>
          dsimp only
          rw [readwrite_calm env hc f' m g d]
          simp only [Bool.false_eq_true, if_false]
          exact ih _ hn.2 (by rw [readwrite_ne env f' m d hf hne, hm]) f h
  refine ⟨?_, fun h => by rw [(frame l m h).2, hm], fun f h => ?_⟩
  rotate_left
  · obtain ⟨m', h1, h2⟩ := (main l m hn hm f h).2
    rw [h2, C123_reported env f fd hf m' c h1]
  by_cases h : fd ∈ l.map Prod.fst
  · obtain ⟨⟨g, f⟩, hp, e⟩ := List.mem_map.1 h
    dsimp only at e; subst e
    exact (main l m hn hm f hp).1
  · exact (frame l m h).1

/-- What `readwrite` makes of a connection whose handlers raise nothing and keep it open: the same as `select` does. -/
theorem C123_agree (env : Env C) (hfine : Fine env) (fd : Nat) (hf : Free env fd) (f : Flags) (hb : f.bad = false) (m : Dict Nat C) (c : C)
    (hm : m.get? fd = some c) :
    (readwrite env f m fd c).1.get? fd = alone env f.inn f.out f.pri c := by
  have fr : ∀ c, ∀ p ∈ (env.read c).new, p.1 ≠ fd := fun c p h => hf c p (by simp [h])
  have fw : ∀ c, ∀ p ∈ (env.write c).new, p.1 ≠ fd := fun c p h => hf c p (by simp [h])
  have fe : ∀ c, ∀ p ∈ (env.expt c).new, p.1 ≠ fd := fun c p h => hf c p (by simp [h])
  obtain ⟨i, o, p, b⟩ := f
  simp only at hb; subst hb
  cases i <;> cases o <;> cases p <;>
    simp [readwrite, handlers, chain, alone, event, next, (hfine _).1.1, (hfine _).1.2, (hfine _).2.1.1, (hfine _).2.1.2,
      (hfine _).2.2.1, (hfine _).2.2.2, store_self _ _ _ (fr _), store_self _ _ _ (fw _), store_self _ _ _ (fe _), hm]

/-- How `readwrite` ends for a single event of reading: a lost connection is closed, other errors are handled, only
the end of the program goes through. -/
theorem C123_error (env : Env C) (fd : Nat) (hf : Free env fd) (m : Dict Nat C) (c : C) :
    ((env.read c).out = .ok → (readwrite env { inn := true } m fd c).2 = false ∧
      (readwrite env { inn := true } m fd c).1.get? fd = if (env.read c).isOpen then some (env.read c).obj else none) ∧
    (∀ e, (env.read c).out = .os e → e ∈ disconnected → (readwrite env { inn := true } m fd c).1.get? fd =
      if (env.read c).isOpen && (env.close (env.read c).obj).isOpen then some (env.close (env.read c).obj).obj else none) ∧
    (∀ e, (env.read c).out = .os e → e ∉ disconnected → (readwrite env { inn := true } m fd c).1.get? fd =
      if (env.read c).isOpen && (env.error (env.read c).obj).isOpen then some (env.error (env.read c).obj).obj else none) ∧
    ((env.read c).out = .other → (readwrite env { inn := true } m fd c).1.get? fd =
      if (env.read c).isOpen && (env.error (env.read c).obj).isOpen then some (env.error (env.read c).obj).obj else none) ∧
    ((env.read c).out = .exit → (readwrite env { inn := true } m fd c).2 = true) := by
  have fr : ∀ c, ∀ p ∈ (env.read c).new, p.1 ≠ fd := fun c p h => hf c p (by simp [h])
  have fc : ∀ c, ∀ p ∈ (env.close c).new, p.1 ≠ fd := fun c p h => hf c p (by simp [h])
  have fe : ∀ c, ∀ p ∈ (env.error c).new, p.1 ≠ fd := fun c p h => hf c p (by simp [h])
  have hs := store_self m fd (env.read c) (fr c)
  refine ⟨fun h => ?_, fun e h he => ?_, fun e h he => ?_, fun h => ?_, fun h => ?_⟩
  · simp [readwrite, handlers, chain, next, h, hs]
  · simp only [readwrite, handlers, chain, next, h, if_true, Bool.false_eq_true, if_false, List.append_nil,
      reduceCtorEq, Bool.true_and, he]
    exact next_self _ fd ⟨_, _, _, _⟩ _ (fc _) (fun hc => by rw [hs, hc]; rfl)
  · simp only [readwrite, handlers, chain, next, h, if_true, Bool.false_eq_true, if_false, List.append_nil,
      reduceCtorEq, Bool.true_and, he]
    exact next_self _ fd ⟨_, _, _, _⟩ _ (fe _) (fun hc => by rw [hs, hc]; rfl)
  · simp only [readwrite, handlers, chain, next, h, if_true, Bool.false_eq_true, if_false, List.append_nil,
      reduceCtorEq, Bool.true_and]
    exact next_self _ fd ⟨_, _, _, _⟩ _ (fe _) (fun hc => by rw [hs, hc]; rfl)
  · simp [readwrite, handlers, chain, h]

/-- Exactly the connections that want it are waited for: for reading, for writing unless it is the listening socket. -/
theorem C123_asked (env : Env C) (m : Dict Nat C) (fd : Nat) :
    (fd ∈ (asked env m).r ↔ ∃ c, m.get? fd = some c ∧ env.readable c = true) ∧
    (fd ∈ (asked env m).w ↔ ∃ c, m.get? fd = some c ∧ env.writable c = true ∧ env.accepting c = false) ∧
    (fd ∈ (asked env m).e ↔ ∃ c, m.get? fd = some c ∧ (env.readable c = true ∨ env.writable c = true)) ∧
    (∀ i o, (fd, i, o) ∈ registered env m ↔ ∃ c, m.get? fd = some c ∧ i = env.readable c ∧
      o = (env.writable c && !env.accepting c) ∧ (i = true ∨ o = true)) := by
  simp only [Dict.get?_eq_some_iff, asked, registered, List.mem_map, List.mem_filter]
  refine ⟨⟨?_, ?_⟩, ⟨?_, ?_⟩, ⟨?_, ?_⟩, fun i o => ⟨?_, ?_⟩⟩
  · rintro ⟨⟨g, c⟩, ⟨h1, h2⟩, rfl⟩; exact ⟨c, h1, h2⟩
  · rintro ⟨c, h1, h2⟩; exact ⟨(fd, c), ⟨h1, h2⟩, rfl⟩
  · rintro ⟨⟨g, c⟩, ⟨h1, h2⟩, rfl⟩; exact ⟨c, h1, by simpa using h2⟩
  · rintro ⟨c, h1, h2⟩; exact ⟨(fd, c), ⟨h1, by simpa using h2⟩, rfl⟩
  · rintro ⟨⟨g, c⟩, ⟨h1, h2⟩, rfl⟩; exact ⟨c, h1, by simpa using h2⟩
  · rintro ⟨c, h1, h2⟩; exact ⟨(fd, c), ⟨h1, by simpa using h2⟩, rfl⟩
  · rintro ⟨⟨⟨g, c⟩, h1, h2⟩, h3⟩
    simp only [Prod.mk.injEq] at h2
    obtain ⟨rfl, rfl, rfl⟩ := h2
    exact ⟨c, h1, rfl, rfl, by simpa using h3⟩
  · rintro ⟨c, h1, rfl, rfl, h2⟩
    exact ⟨⟨(fd, c), h1, rfl⟩, by simpa using h2⟩

/-- The passes: nothing happens if nobody wants anything, an error of waiting changes nothing, otherwise those that are ready are
served. -/
theorem C123_pass (env : Env C) (m : Dict Nat C) :
    (∀ select, (asked env m).e = [] → poll env select m = (m, false)) ∧
    (∀ select, (asked env m).e ≠ [] → select (asked env m) = none → poll env select m = (m, true)) ∧
    (∀ select a, (asked env m).e ≠ [] → select (asked env m) = some a → poll env select m = serve env a m) ∧
    (∀ os, m.items ≠ [] → os (registered env m) = none → poll2 env os m = (m, true)) ∧
    (∀ os l, m.items ≠ [] → os (registered env m) = some l → poll2 env os m = serve2 env l m) := by
  have hne : (asked env m).e ≠ [] → asked env m ≠ ⟨[], [], []⟩ := fun h e => h (by rw [e])
  refine ⟨fun select h => ?_, fun select h hs => ?_, fun select a h hs => ?_, fun os h hs => ?_, fun os l h hs => ?_⟩
  · have : asked env m = ⟨[], [], []⟩ := by
      have hr : ∀ fd, fd ∉ (asked env m).e := by rw [h]; simp
      have h1 : (asked env m).r = [] := List.eq_nil_iff_forall_not_mem.2 (fun fd hfd => by
        obtain ⟨c, a, b⟩ := (C123_asked env m fd).1.1 hfd
        exact hr fd ((C123_asked env m fd).2.2.1.2 ⟨c, a, Or.inl b⟩))
      have h2 : (asked env m).w = [] := List.eq_nil_iff_forall_not_mem.2 (fun fd hfd => by
        obtain ⟨c, a, b, _⟩ := (C123_asked env m fd).2.1.1 hfd
        exact hr fd ((C123_asked env m fd).2.2.1.2 ⟨c, a, Or.inr b⟩))
      cases hx : asked env m with
      | mk r w e => rw [hx] at h h1 h2; simp only at h h1 h2; subst h h1 h2; rfl
    rw [poll, if_pos this]
  · rw [poll, if_neg (hne h), hs]
  · rw [poll, if_neg (hne h), hs]
  · rw [poll2, if_neg h, hs]
  · rw [poll2, if_neg h, hs]

/-- An exception that leaves a pass ends it: connections further behind are not served in it. -/
theorem C123_end (env : Env C) (h : C → Res C) (fd : Nat) (l : List Nat) (m : Dict Nat C) (c : C) (hm : m.get? fd = some c)
    (hx : (h c).out = .exit) : phase env h (fd :: l) m = (store m fd (h c), true) := by
  unfold phase
  rw [hm]
  simp [guarded, hx]

/-! ### Examples and counterexamples -/

/-- Objects for examples: numbers, where 0 is the listening socket that accepts a connection with number 5. A 9 is closed when
read, an 8 raises an error when read, reading adds 1, writing adds 10. -/
private def sample : Env Nat where
  readable := fun _ => true
  writable := fun c => decide (c > 0)
  accepting := fun c => decide (c = 0)
  read := fun c => if c = 0 then { obj := 0, new := [(5, 2)] } else if c = 9 then { obj := 9, isOpen := false }
    else if c = 8 then { obj := 8, out := .other } else { obj := c + 1 }
  write := fun c => { obj := c + 10 }
  expt := fun c => { obj := c + 100 }
  close := fun c => { obj := c, isOpen := false }
  error := fun c => { obj := c, isOpen := false }

private def four : Dict Nat Nat := (((Dict.empty.insert 3 0).insert 4 8).insert 6 9).insert 7 1

-- an error and an end of file at others: connection 7 is read and written
example : (serve sample ⟨[3, 4, 6, 7], [4, 6, 7], []⟩ four).1.items = [(3, 0), (7, 12), (5, 2)] := by decide +kernel

example : (serve2 sample [(3, { inn := true }), (4, { inn := true }), (6, { bad := true }), (7, { inn := true, out := true })] four).1.items =
    [(3, 0), (7, 12), (5, 2)] := by decide +kernel

example : asked sample four = ⟨[3, 4, 6, 7], [4, 6, 7], [3, 4, 6, 7]⟩ := by decide +kernel

/-- A connection accepted in a pass can get an event of a connection that was closed before in the same pass, if it got the
same number. -/
theorem C123_refuted_reused : ∃ (env : Env Nat) (m : Dict Nat Nat) (a : Asked), Calm env ∧ m.get? 5 = some 9 ∧
    (serve env ⟨a.r, [], []⟩ m).1.get? 5 = some 2 ∧ (serve env a m).1.get? 5 = some 12 := by
  refine ⟨sample, (Dict.empty.insert 5 9).insert 3 0, ⟨[5, 3], [5], []⟩, ⟨fun c => ⟨?_, ?_, ?_, rfl⟩, fun c => rfl⟩, ?_, ?_, ?_⟩
  · simp only [sample]; repeat' split
    all_goals simp
  · simp [sample]
  · simp [sample]
  · decide +kernel
  · decide +kernel
  · decide +kernel

/-- With `poll`, a connection that was closed by reading is written nevertheless: here, the writing accepts a connection. -/
theorem C123_refuted_closed : ∃ (env : Env Nat) (m : Dict Nat Nat), Calm env ∧
    (serve env ⟨[5], [5], []⟩ m).1.items = [] ∧
    (serve2 env [(5, { inn := true, out := true })] m).1.items = [(6, 9)] := by
  refine ⟨{ sample with read := fun c => { obj := c, isOpen := false }, write := fun c => { obj := c, new := [(6, c)] } },
    Dict.empty.insert 5 9, ⟨fun c => ⟨by simp, by simp, by simp [sample], rfl⟩, fun c => rfl⟩, ?_, ?_⟩
  · decide +kernel
  · decide +kernel

end Verif.Dispatch
