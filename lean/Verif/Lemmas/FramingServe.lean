import Verif.Lemmas.Framing

namespace Verif.Framing

open Spec.Framing

variable {σ V : Type}

theorem endMark_ne : endMark ≠ [] := by decide

/-! ## Output -/

/-- what the queue still sends -/
def pending : List (Option Bytes) → Bytes
  | [] => []
  | none :: _ => []
  | some b :: r => b ++ pending r

theorem pending_append (f g : List (Option Bytes)) : pending (f ++ g) = if none ∈ f then pending f else pending f ++ pending g := by
  induction f with
  | nil => simp [pending]
  | cons a f ih =>
    cases a with
    | none => simp [pending]
    | some b =>
      rw [List.cons_append, pending, pending, ih]
      by_cases h : none ∈ f <;> simp [h]

theorem pending_some (l : List Bytes) : pending (l.map some) = l.flatten := by
  induction l with
  | nil => rfl
  | cons a l ih => simp [pending, ih]

theorem pieces_flatten {size : Nat} (hs : 0 < size) (n : Nat) (d : Bytes) (h : d.length ≤ n) : (pieces size n d).flatten = d := by
  induction n generalizing d with
  | zero => rw [List.length_eq_zero_iff.1 (Nat.le_zero.1 h)]; rfl
  | succ n ih =>
    unfold pieces
    split
    · rename_i e; rw [e]; rfl
    · rename_i e
      have : 0 < d.length := List.length_pos_iff.2 e
      rw [List.flatten_cons, ih _ (by simp; omega), List.take_append_drop]

/-- the bytes sent and to be sent -/
def total (h : Handler σ) : Bytes := if h.connected then h.sent ++ pending h.fifo else h.sent

/-- nothing pushed from now on is sent -/
def Ended (h : Handler σ) : Prop := h.connected = false ∨ none ∈ h.fifo

theorem initiateSend_total (accept : Nat → Bytes → Nat) (h : Handler σ) : total (initiateSend accept h) = total h := by
  unfold initiateSend
  split
  · rename_i hc
    split
    · rfl
    · rename_i r hf
      simp [total, hc, hf, pending]
    · rename_i b r hf
      split
      · rename_i hb
        simp [total, hc, hf, pending, hb]
      · dsimp only
        split
        · simp [total, hc]
        · split
          · simp only [total, hc, if_true, hf, pending, List.append_assoc]
            congr 1
            rw [← List.append_assoc]
            congr 1
            generalize accept h.attempts (b.take outSize) = a
            have : (b.take outSize).take (min a (b.take outSize).length) = b.take (min a (b.take outSize).length) := by
              rw [List.take_take]
              congr 1
              rw [List.length_take]
              omega
            rw [this, List.take_append_drop]
          · rename_i h0 h1
            simp only [total, hc, if_true, hf, pending, List.append_assoc]
            congr 2
            have h3 : b.length ≤ outSize := by omega
            rw [List.take_of_length_le h3] at h1 ⊢
            exact List.take_of_length_le (by omega)
  · rfl

theorem initiateSend_ended (accept : Nat → Bytes → Nat) (h : Handler σ) : Ended (initiateSend accept h) ↔ Ended h := by
  unfold initiateSend Ended
  split
  · rename_i hc
    split
    · rfl
    · rename_i r hf
      simp [hf]
    · rename_i b r hf
      split
      · simp [hf]
      · dsimp only
        split
        · simp
        · split <;> simp [hf]
  · rfl

theorem initiateSend_keeps (accept : Nat → Bytes → Nat) (h : Handler σ) : (initiateSend accept h).input = h.input ∧ (initiateSend accept h).server = h.server := by
  unfold initiateSend
  split
  · split
    · exact ⟨rfl, rfl⟩
    · exact ⟨rfl, rfl⟩
    · split
      · exact ⟨rfl, rfl⟩
      · dsimp only
        split
        · exact ⟨rfl, rfl⟩
        · split <;> exact ⟨rfl, rfl⟩
  · exact ⟨rfl, rfl⟩

theorem initiateSend_disconnected (accept : Nat → Bytes → Nat) (h : Handler σ) (hc : h.connected = false) : initiateSend accept h = h := by
  unfold initiateSend
  rw [if_neg (by rw [hc]; exact Bool.false_ne_true)]

theorem queued_flatten (data : Bytes) : (if outSize < data.length then pieces outSize data.length data else [data]).flatten = data := by
  split
  · exact pieces_flatten (by decide) _ _ (Nat.le_refl _)
  · simp

theorem push_total (accept : Nat → Bytes → Nat) (h : Handler σ) (data : Bytes) [Decidable (Ended h)] :
    total (push accept h data) = total h ++ (if Ended h then [] else data) := by
  unfold push
  rw [initiateSend_total]
  unfold total
  dsimp only
  by_cases hc : h.connected
  · rw [if_pos hc, if_pos hc, pending_append, pending_some, queued_flatten]
    by_cases hn : none ∈ h.fifo
    · rw [if_pos hn, if_pos (show Ended h from Or.inr hn), List.append_nil]
    · rw [if_neg hn, if_neg (show ¬ Ended h by simp [Ended, hc, hn]), List.append_assoc]
  · rw [if_neg hc, if_neg hc, if_pos (show Ended h from Or.inl (by simpa using hc)), List.append_nil]

theorem push_ended (accept : Nat → Bytes → Nat) (h : Handler σ) (data : Bytes) : Ended (push accept h data) ↔ Ended h := by
  unfold push
  rw [initiateSend_ended]
  unfold Ended
  simp

theorem push_keeps (accept : Nat → Bytes → Nat) (h : Handler σ) (data : Bytes) : (push accept h data).input = h.input ∧ (push accept h data).server = h.server := by
  unfold push
  exact initiateSend_keeps accept _

theorem foundTerminator_close (codec : Codec V) (proceed : σ → V → σ × V) (accept : Nat → Bytes → Nat) (h : Handler σ) :
    foundTerminator codec proceed accept h closeMark = { h with fifo := h.fifo ++ [none] } := by
  unfold foundTerminator; rw [if_pos rfl]

theorem foundTerminator_message (codec : Codec V) (proceed : σ → V → σ × V) (accept : Nat → Bytes → Nat) (h : Handler σ) (m : Bytes) (hm : m ≠ closeMark) :
    foundTerminator codec proceed accept h m = push accept { h with server := (answer codec proceed h.server m).1 } ((answer codec proceed h.server m).2 ++ endMark) := by
  unfold foundTerminator answer
  rw [if_neg hm]
  cases codec.loads m with
  | none => rfl
  | some v =>
    dsimp only
    cases codec.dumps (proceed h.server v).2 <;> rfl

open Classical in
theorem fold_messages (codec : Codec V) (proceed : σ → V → σ × V) (accept : Nat → Bytes → Nat) (ms : List Bytes) (h : Handler σ) :
    let h' := ms.foldl (foundTerminator codec proceed accept) h
    total h' = total h ++ (if Ended h then [] else answers codec proceed closeMark endMark h.server ms) ∧
      (Ended h' ↔ Ended h ∨ closeMark ∈ ms) ∧ h'.server = after codec proceed closeMark h.server ms ∧ h'.input = h.input := by
  dsimp only
  induction ms generalizing h with
  | nil => simp [answers, after]
  | cons m ms ih =>
    rw [List.foldl_cons]
    by_cases hm : m = closeMark
    · subst hm
      rw [foundTerminator_close]
      obtain ⟨h1, h2, h3, h4⟩ := ih { h with fifo := h.fifo ++ [none] }
      have he : Ended { h with fifo := h.fifo ++ [none] } := Or.inr (by simp)
      refine ⟨?_, ?_, ?_, h4⟩
      · rw [h1, if_pos he, answers, if_pos rfl, ite_self, List.append_nil, List.append_nil]
        unfold total
        dsimp only
        rw [pending_append]
        by_cases hn : none ∈ h.fifo <;> simp [hn, pending]
      · rw [h2]; simp [he]
      · rw [h3]; simp [after]
    · rw [foundTerminator_message codec proceed accept h m hm]
      have hs : ∀ s : σ, Ended { h with server := s } ↔ Ended h := fun _ => by unfold Ended; rfl
      have ht : ∀ s : σ, total { h with server := s } = total h := fun _ => rfl
      generalize hd : (answer codec proceed h.server m).2 = d
      generalize hs' : (answer codec proceed h.server m).1 = s'
      obtain ⟨h1, h2, h3, h4⟩ := ih (push accept { h with server := s' } (d ++ endMark))
      obtain ⟨k1, k2⟩ := push_keeps accept { h with server := s' } (d ++ endMark)
      refine ⟨?_, ?_, ?_, by rw [h4, k1]⟩
      · rw [h1, push_total, k2]
        simp only [push_ended, hs]
        rw [ht]
        rw [answers, if_neg hm, hs', hd]
        by_cases he : Ended h <;> simp [he]
      · rw [h2, push_ended, hs]
        simp [Ne.symm hm]
      · rw [h3, k2]
        simp [after, hm, hs']

/-! ## A connection -/

theorem answers_append (codec : Codec V) (proceed : σ → V → σ × V) (s : σ) (ms ms' : List Bytes) :
    answers codec proceed closeMark endMark s (ms ++ ms') = answers codec proceed closeMark endMark s ms ++
      (if closeMark ∈ ms then [] else answers codec proceed closeMark endMark (after codec proceed closeMark s ms) ms') := by
  induction ms generalizing s with
  | nil => simp [answers, after]
  | cons m ms ih =>
    rw [List.cons_append, answers, answers]
    by_cases hm : m = closeMark
    · simp [hm]
    · rw [if_neg hm, if_neg hm, ih]
      simp [Ne.symm hm, after, hm]

theorem after_append (codec : Codec V) (proceed : σ → V → σ × V) (s : σ) (ms ms' : List Bytes) :
    after codec proceed closeMark s (ms ++ ms') = after codec proceed closeMark (after codec proceed closeMark s ms) ms' := by
  simp [after]

theorem frames_exist (x : Bytes) : ∃ ms r, Frames endMark x ms r := by
  have := read_frames endMark_ne (c := ⟨[], []⟩) (safe_nil _ _) (by
    rintro ⟨p, q, h⟩
    simp at h
    exact endMark_ne h.2.1) x
  exact ⟨_, _, by simpa using this.1⟩

/-- Invariant of a connection: `x` came in; `closed`: the peer closed. -/
structure Conn (codec : Codec V) (proceed : σ → V → σ × V) (s0 : σ) (x : Bytes) (closed : Prop) (h : Handler σ) (ms : List Bytes) (r : Bytes) : Prop where
  frames : Frames endMark x ms r
  sent : h.sent <+: answers codec proceed closeMark endMark s0 ms
  state : ∃ done, done <+: ms ∧ h.server = after codec proceed closeMark s0 done
  opened : h.connected = true → r = h.input.collected ++ h.input.inBuf ∧ Safe endMark h.input.collected h.input.inBuf ∧
    h.sent ++ pending h.fifo = answers codec proceed closeMark endMark s0 ms ∧ (none ∈ h.fifo ↔ closeMark ∈ ms) ∧
    h.server = after codec proceed closeMark s0 ms
  shut : h.connected = false → closed ∨ (closeMark ∈ ms ∧ h.sent = answers codec proceed closeMark endMark s0 ms)

theorem sent_of_total {accept : Nat → Bytes → Nat} {h : Handler σ} : h.sent <+: (initiateSend accept h).sent := by
  unfold initiateSend
  split
  · split
    · exact List.prefix_refl _
    · exact List.prefix_refl _
    · split
      · exact List.prefix_refl _
      · dsimp only
        split
        · exact List.prefix_refl _
        · split <;> exact List.prefix_append _ _
  · exact List.prefix_refl _

theorem conn_new (codec : Codec V) (proceed : σ → V → σ × V) (s : σ) : Conn codec proceed s [] False (Handler.new s) [] [] where
  frames := .rest _ (by
    rintro ⟨p, q, h⟩
    simp at h
    exact endMark_ne h.2.1)
  sent := List.prefix_refl _
  state := ⟨[], List.prefix_refl _, rfl⟩
  opened := fun _ => ⟨rfl, safe_nil _ _, rfl, by simp [Handler.new], rfl⟩
  shut := fun h => by cases h

/-- what came in an event -/
def chunkOf : Event → Bytes
  | .data c => c
  | .closed => []
  | .writable => []

theorem conn_step {codec : Codec V} {proceed : σ → V → σ × V} {accept : Nat → Bytes → Nat} {s0 : σ} {x : Bytes} {closed : Prop} {h : Handler σ}
    {ms : List Bytes} {r : Bytes} (hi : Conn codec proceed s0 x closed h ms r) (e : Event) :
    ∃ ms' r', Conn codec proceed s0 (x ++ chunkOf e) (closed ∨ e = .closed) (step codec proceed accept h e) ms' r' := by
  cases hc : h.connected with
  | false =>
    -- nothing happens
    have hstep : step codec proceed accept h e = h := by
      cases e with
      | data c => unfold step; dsimp only; rw [if_neg (by rw [hc]; exact Bool.false_ne_true)]
      | closed => unfold step; dsimp only; rw [← hc]
      | writable => exact initiateSend_disconnected accept h hc
    rw [hstep]
    obtain ⟨ms', r', hf⟩ := frames_exist (r ++ chunkOf e)
    refine ⟨ms ++ ms', r', frames_append hi.frames hf, ?_, ?_, fun h' => (by rw [hc] at h'; cases h'), ?_⟩
    · rw [answers_append]
      exact hi.sent.trans (List.prefix_append _ _)
    · obtain ⟨d, hd, hs⟩ := hi.state
      exact ⟨d, hd.trans (List.prefix_append _ _), hs⟩
    · intro _
      rcases hi.shut hc with h1 | ⟨h1, h2⟩
      · exact Or.inl (Or.inl h1)
      · refine Or.inr ⟨List.mem_append.2 (Or.inl h1), ?_⟩
        rw [answers_append, if_pos h1, List.append_nil]
        exact h2
  | true =>
    obtain ⟨hr, hsafe, htot, hend, hserv⟩ := hi.opened hc
    cases e with
    | data c =>
      have hfr := hi.frames
      obtain ⟨f1, f2⟩ := read_frames endMark_ne hsafe (by rw [← hr]; exact frames_rest hfr) c
      have hstep : step codec proceed accept h (.data c) =
          (read endMark h.input c).1.foldl (foundTerminator codec proceed accept) { h with input := (read endMark h.input c).2 } := by
        unfold step; dsimp only; rw [if_pos hc]
      rw [hstep]
      generalize hx : read endMark h.input c = y at *
      obtain ⟨ms', inp⟩ := y
      dsimp only at f1 f2 ⊢
      obtain ⟨g1, g2, g3, g4⟩ := fold_messages codec proceed accept ms' { h with input := inp }
      generalize hh : ms'.foldl (foundTerminator codec proceed accept) { h with input := inp } = h' at *
      have hE : Ended { h with input := inp } ↔ closeMark ∈ ms := by
        unfold Ended
        simp [hc, hend]
      have hT : total { h with input := inp } = answers codec proceed closeMark endMark s0 ms := by
        unfold total
        simp [hc, htot]
      have g5 : total h' = answers codec proceed closeMark endMark s0 (ms ++ ms') := by
        rw [g1, hT, answers_append]
        congr 1
        by_cases hm : closeMark ∈ ms
        · rw [if_pos (hE.2 hm), if_pos hm]
        · rw [if_neg (fun h => hm (hE.1 h)), if_neg hm, ← hserv]
      have g6 : h'.server = after codec proceed closeMark s0 (ms ++ ms') := by
        rw [g3, after_append, ← hserv]
      rw [← hr] at f1
      refine ⟨ms ++ ms', inp.collected ++ inp.inBuf, frames_append hfr f1, ?_, ⟨_, List.prefix_refl _, g6⟩, ?_, ?_⟩
      · rw [← g5]
        unfold total
        split
        · exact List.prefix_append _ _
        · exact List.prefix_refl _
      · intro hc'
        rw [g4]
        refine ⟨rfl, f2, ?_, ?_, g6⟩
        · rw [← g5]; unfold total; rw [if_pos hc']
        · rw [List.mem_append, ← hE, ← g2]
          unfold Ended
          simp [hc']
      · intro hc'
        right
        constructor
        · rw [List.mem_append, ← hE, ← g2]
          exact Or.inl hc'
        · rw [← g5]; unfold total; rw [if_neg (by rw [hc']; exact Bool.false_ne_true)]
    | closed =>
      refine ⟨ms, r, by rw [chunkOf, List.append_nil]; exact hi.frames, hi.sent, hi.state, fun h' => (by simp [step] at h'), fun _ => Or.inl (Or.inr rfl)⟩
    | writable =>
      have hstep : step codec proceed accept h .writable = initiateSend accept h := rfl
      rw [hstep]
      obtain ⟨k1, k2⟩ := initiateSend_keeps accept h
      have hT := initiateSend_total accept h
      have hE := initiateSend_ended accept h
      have hE' : Ended h ↔ closeMark ∈ ms := by unfold Ended; simp [hc, hend]
      have hT' : total h = answers codec proceed closeMark endMark s0 ms := by unfold total; simp [hc, htot]
      rw [hT'] at hT
      rw [hE'] at hE
      refine ⟨ms, r, by rw [chunkOf, List.append_nil]; exact hi.frames, ?_, ?_, ?_, ?_⟩
      · rw [← hT]
        unfold total
        split
        · exact List.prefix_append _ _
        · exact List.prefix_refl _
      · rw [k2]; exact hi.state
      · intro hc'
        rw [k1, k2]
        refine ⟨hr, hsafe, ?_, ?_, hserv⟩
        · rw [← hT]; unfold total; rw [if_pos hc']
        · rw [← hE]; unfold Ended; simp [hc']
      · intro hc'
        right
        constructor
        · rw [← hE]; exact Or.inl hc'
        · rw [← hT]; unfold total; rw [if_neg (by rw [hc']; exact Bool.false_ne_true)]

theorem conn_serve {codec : Codec V} {proceed : σ → V → σ × V} {accept : Nat → Bytes → Nat} {s0 : σ} (es : List Event) {x : Bytes} {closed : Prop}
    {h : Handler σ} {ms : List Bytes} {r : Bytes} (hi : Conn codec proceed s0 x closed h ms r) :
    ∃ ms' r', Conn codec proceed s0 (x ++ received es) (closed ∨ Event.closed ∈ es) (serve codec proceed accept h es) ms' r' := by
  induction es generalizing x closed h ms r with
  | nil => exact ⟨ms, r, by simpa [received, serve] using hi⟩
  | cons e es ih =>
    obtain ⟨ms1, r1, h1⟩ := conn_step (accept := accept) hi e
    obtain ⟨ms2, r2, h2⟩ := ih h1
    refine ⟨ms2, r2, ?_⟩
    have e1 : x ++ received (e :: es) = x ++ chunkOf e ++ received es := by
      cases e <;> simp [received, chunkOf]
    have e2 : (closed ∨ Event.closed ∈ e :: es) = ((closed ∨ e = .closed) ∨ Event.closed ∈ es) := by
      rw [List.mem_cons, or_assoc, eq_comm (a := e)]
    rw [e1, e2]
    exact h2

/-! ## Draining -/

/-- how many calls of `send` the queue needs at most -/
def work : List (Option Bytes) → Nat
  | [] => 0
  | none :: r => 1 + work r
  | some b :: r => b.length + 1 + work r

theorem initiateSend_work {accept : Nat → Bytes → Nat} (ha : ∀ n d, d ≠ [] → 0 < accept n d) (h : Handler σ) (hc : h.connected = true) (hf : h.fifo ≠ []) :
    work (initiateSend accept h).fifo < work h.fifo := by
  unfold initiateSend
  rw [if_pos hc]
  split
  · rename_i h0; exact absurd h0 hf
  · rename_i r h0; rw [h0]; simp [work]
  · rename_i b r h0
    rw [h0]
    split
    · simp [work]
    · rename_i hb
      dsimp only
      have hb' : 0 < b.length := List.length_pos_iff.2 hb
      have hne : b.take outSize ≠ [] := by
        intro hh
        rw [List.take_eq_nil_iff] at hh
        rcases hh with hh | hh
        · exact absurd hh (by decide)
        · exact hb hh
      have h1 := ha h.attempts _ hne
      have h2 : 0 < (b.take outSize).length := List.length_pos_iff.2 hne
      split
      · omega
      · split
        · simp only [work, List.length_drop]; omega
        · simp [work]

theorem drain {codec : Codec V} {proceed : σ → V → σ × V} {accept : Nat → Bytes → Nat} (ha : ∀ n d, d ≠ [] → 0 < accept n d) (n : Nat) (h : Handler σ) (hn : work h.fifo ≤ n) :
    (serve codec proceed accept h (List.replicate n .writable)).connected = false ∨ (serve codec proceed accept h (List.replicate n .writable)).fifo = [] := by
  induction n generalizing h with
  | zero =>
    right
    cases hf : h.fifo with
    | nil => simp [serve, hf]
    | cons a r => rw [hf] at hn; cases a <;> simp [work] at hn
  | succ n ih =>
    rw [List.replicate_succ]
    have e : serve codec proceed accept h (.writable :: List.replicate n .writable) = serve codec proceed accept (initiateSend accept h) (List.replicate n .writable) := rfl
    rw [e]
    by_cases hc : h.connected = true
    · by_cases hf : h.fifo = []
      · have : initiateSend accept h = h := by unfold initiateSend; rw [if_pos hc, hf]
        rw [this]
        exact ih h (by rw [hf]; exact Nat.zero_le _)
      · exact ih _ (by have := initiateSend_work ha h hc hf; omega)
    · left
      have hc : h.connected = false := by simpa using hc
      have key : ∀ m, serve codec proceed accept h (List.replicate m .writable) = h := by
        intro m
        induction m with
        | zero => rfl
        | succ m ihm =>
          rw [List.replicate_succ]
          have e : serve codec proceed accept h (.writable :: List.replicate m .writable) = serve codec proceed accept (initiateSend accept h) (List.replicate m .writable) := rfl
          rw [e, initiateSend_disconnected accept h hc, ihm]
      rw [initiateSend_disconnected accept h hc, key]
      exact hc

/-! ## The client -/

/-- A message without the mark ends at the mark: the first byte of the mark is nowhere else in the mark. -/
theorem ends_endMark {m : Bytes} : Ends endMark m ↔ ¬ endMark <:+: m := by
  constructor
  · rintro h ⟨p, q, hpq⟩
    have := h p (q ++ endMark) (by rw [← hpq]; simp)
    simp at this
    exact endMark_ne this.2
  · intro h p q hpq
    apply Classical.byContradiction
    intro hq
    have hq' : 0 < q.length := List.length_pos_iff.2 hq
    have hl := congrArg List.length hpq
    simp only [List.length_append] at hl
    by_cases hle : p.length + endMark.length ≤ m.length
    · have : p ++ endMark <+: m := List.prefix_of_prefix_length_le (l₃ := m ++ endMark) ⟨q, hpq.symm⟩ ⟨endMark, rfl⟩ (by simp; omega)
      obtain ⟨r, hr⟩ := this
      exact h ⟨p, r, hr⟩
    · have hp : p <+: m := List.prefix_of_prefix_length_le (l₃ := m ++ endMark) ⟨endMark ++ q, by rw [hpq]; simp⟩ ⟨endMark, rfl⟩ (by omega)
      obtain ⟨k, rfl⟩ := hp
      rw [List.append_assoc, List.append_assoc] at hpq
      have h2 := List.append_cancel_left hpq
      simp only [List.length_append] at hl hle
      have hk : 0 < k.length ∧ k.length < endMark.length := by omega
      have h3 : (k ++ endMark)[k.length]? = endMark[0]? := by
        rw [List.getElem?_append_right (Nat.le_refl _), Nat.sub_self]
      rw [h2, List.getElem?_append_left hk.2] at h3
      have : ∀ i, i < endMark.length → 0 < i → endMark[i]? ≠ endMark[0]? := by decide
      exact this _ hk.2 hk.1 h3

theorem complete_end (m : Bytes) : complete (m ++ endMark) = true := by
  unfold complete
  rw [Option.isSome_iff_ne_none]
  intro h
  apply find_none_iff.1 h
  have hl : endMark.length = 17 := by decide
  have : (m ++ endMark).length - 32 ≤ m.length := by simp [hl]
  rw [List.drop_append_of_le_length this]
  exact ⟨_, [], by rw [List.append_nil]⟩

theorem complete_infix {m : Bytes} (h : complete m = true) : endMark <:+: m := by
  unfold complete at h
  apply Classical.byContradiction
  intro hn
  have : find endMark (m.drop (m.length - 32)) = none := find_none_iff.2 (fun hi => hn (hi.trans (List.drop_suffix _ _).isInfix))
  rw [this] at h
  cases h

theorem receive_message {d : Bytes} (hd : Ends endMark d) (cs more : List Bytes) (m : Bytes) (hne : ∀ c ∈ cs, c ≠ []) (hcs : m ++ cs.flatten = d ++ endMark) (hlast : cs = [] → m = d ++ endMark) :
    receive m (cs ++ more) = .message d more ∨ receive m (cs ++ more) = .message (d ++ endMark) more := by
  induction cs generalizing m with
  | nil =>
    right
    rw [hlast rfl]
    cases more with
    | nil => simp [receive, complete_end]
    | cons c more => simp [receive, complete_end]
  | cons c cs ih =>
    rw [List.flatten_cons] at hcs
    have hnc : complete m ≠ true := by
      intro hcm
      obtain ⟨p, q, hpq⟩ := complete_infix hcm
      have := hd p (q ++ (c ++ cs.flatten)) (by rw [← hcs, ← hpq]; simp)
      simp at this
      exact hne c List.mem_cons_self this.2.1
    rw [List.cons_append]
    unfold receive
    rw [if_neg hnc, if_neg (hne c List.mem_cons_self)]
    by_cases hce : c = endMark
    · rw [if_pos hce]
      subst hce
      have h1 := hd m cs.flatten (by rw [← hcs]; simp)
      have h2 : cs = [] := by
        cases cs with
        | nil => rfl
        | cons c' cs =>
          simp at h1
          exact absurd h1.1 (hne c' (by simp))
      subst h2
      simp at hcs
      left
      rw [hcs]
      rfl
    · rw [if_neg hce]
      refine ih (m ++ c) (fun c' hc' => hne c' (List.mem_cons_of_mem _ hc')) (by rw [← hcs]; simp) ?_
      intro h0
      subst h0
      simpa using hcs

end Verif.Framing
