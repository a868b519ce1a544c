import Verif.Lexer

/-!
# Lemmas about the lexer model
-/

namespace Amanda

theorem spanFrom_taken (p : Char → Bool) (cs : List Char) (pos : Nat) :
    (spanFrom p cs pos).1 = cs.takeWhile p := by
  induction cs generalizing pos with
  | nil => rfl
  | cons c cs ih =>
      by_cases h : p c <;> simp [spanFrom, h, ih]

theorem spanFrom_rest (p : Char → Bool) (cs : List Char) (pos : Nat) :
    (spanFrom p cs pos).2.1 = cs.dropWhile p := by
  induction cs generalizing pos with
  | nil => rfl
  | cons c cs ih =>
      by_cases h : p c <;> simp [spanFrom, h, ih]

@[simp] theorem span_taken (p : Char → Bool) (l : Lex) : (l.span p).1 = l.rest.takeWhile p :=
  spanFrom_taken p _ _

@[simp] theorem span_rest (p : Char → Bool) (l : Lex) : (l.span p).2.rest = l.rest.dropWhile p :=
  spanFrom_rest p _ _

@[simp] theorem span_line (p : Char → Bool) (l : Lex) : (l.span p).2.line = l.line := rfl

@[simp] theorem advance_line (l : Lex) : l.advance.line = l.line := by
  unfold Lex.advance; split <;> rfl

@[simp] theorem advance_rest (l : Lex) : l.advance.rest = l.rest.tail := by
  unfold Lex.advance; split <;> simp_all

@[simp] theorem comment_line (l : Lex) : l.comment.line = l.line := rfl

@[simp] theorem comment_rest (l : Lex) :
    l.comment.rest = l.rest.dropWhile (fun c => c != '\n') := span_rest _ _

@[simp] theorem whitespace_line (py : PyCfg) (l : Lex) : (l.whitespace py).line = l.line := by
  simp only [Lex.whitespace]; split <;> simp

@[simp] theorem skip_line (py : PyCfg) (l : Lex) : (l.skip py).line = l.line := by
  simp only [Lex.skip]
  split
  · split <;> split <;> simp_all
  · split <;> simp

@[simp] theorem escapeSeq_line (c : Char) (l : Lex) : (l.escapeSeq c).2.line = l.line := by
  unfold Lex.escapeSeq; split <;> simp

@[simp] theorem escapes_line (l : Lex) : l.escapes.2.line = l.line := by
  simp only [Lex.escapes]; split <;> simp

theorem escapeSeq_suffix (c : Char) (l : Lex) : (l.escapeSeq c).2.rest <:+ l.rest := by
  unfold Lex.escapeSeq
  split
  · simp only [advance_rest]
    exact ((List.tail_suffix _).trans (List.tail_suffix _))
  · exact List.suffix_refl _

theorem escapeSeq_shrinks {c : Char} {l : Lex} (h : (l.escapeSeq c).1 = true) :
    (l.escapeSeq c).2.rest.length < l.rest.length := by
  unfold Lex.escapeSeq at h ⊢
  split
  next hl =>
    simp only [advance_rest]
    rcases hr : l.rest with _ | ⟨a, _ | ⟨b, r⟩⟩ <;> simp_all [Lex.lookahead]
    omega
  next hl => simp [hl] at h

theorem escapes_suffix (l : Lex) : l.escapes.2.rest <:+ l.rest := by
  simp only [Lex.escapes]
  have h1 := escapeSeq_suffix 'n' l
  have h2 := (escapeSeq_suffix '\'' (l.escapeSeq 'n').2).trans h1
  have h3 := (escapeSeq_suffix '"' ((l.escapeSeq 'n').2.escapeSeq '\'').2).trans h2
  split
  · exact h3
  · simp only [advance_rest]; exact (List.tail_suffix _).trans h3

theorem escapes_shrinks {l : Lex} (h : l.rest ≠ []) : l.escapes.2.rest.length < l.rest.length := by
  have h1 := escapeSeq_suffix 'n' l
  have h2 := (escapeSeq_suffix '\'' (l.escapeSeq 'n').2)
  have h3 := (escapeSeq_suffix '"' ((l.escapeSeq 'n').2.escapeSeq '\'').2)
  have l1 := h1.length_le
  have l2 := h2.length_le
  have l3 := h3.length_le
  simp only [Lex.escapes]
  split
  next hb =>
    simp only [Bool.or_eq_true] at hb
    show ((((l.escapeSeq 'n').2.escapeSeq '\'').2).escapeSeq '"').2.rest.length < _
    rcases hb with (hb | hb) | hb
    · have := escapeSeq_shrinks hb; omega
    · have := escapeSeq_shrinks hb; omega
    · have := escapeSeq_shrinks hb; omega
  next hb =>
    simp only [advance_rest, List.length_tail]
    have : 0 < l.rest.length := List.length_pos_iff.mpr h
    omega

/-- A control sequence is written with at most as many characters as it is read from. -/
theorem escapes_length {l : Lex} (h : l.rest ≠ []) :
    l.escapes.1.length + l.escapes.2.rest.length ≤ l.rest.length := by
  have step : ∀ (c : Char) (m : Lex),
      (if (m.escapeSeq c).1 then 2 else 0) + (m.escapeSeq c).2.rest.length ≤ m.rest.length := by
    intro c m
    unfold Lex.escapeSeq
    split
    next hl =>
      simp only [advance_rest, ↓reduceIte, List.length_tail]
      rcases hr : m.rest with _ | ⟨a, _ | ⟨b, r⟩⟩ <;> simp_all [Lex.lookahead] <;> omega
    next => simp
  have same : ∀ (c : Char) (m : Lex), (m.escapeSeq c).1 = false → (m.escapeSeq c).2 = m := by
    intro c m
    unfold Lex.escapeSeq
    split <;> simp
  have h1 := step 'n' l
  have h2 := step '\'' (l.escapeSeq 'n').2
  have h3 := step '"' ((l.escapeSeq 'n').2.escapeSeq '\'').2
  have g1 := same 'n' l
  have g2 := same '\'' (l.escapeSeq 'n').2
  have g3 := same '"' ((l.escapeSeq 'n').2.escapeSeq '\'').2
  simp only [Lex.escapes]
  have hpos : 0 < l.rest.length := List.length_pos_iff.mpr h
  generalize l.escapeSeq 'n' = p1 at *
  obtain ⟨b1, l1⟩ := p1
  dsimp only at *
  generalize l1.escapeSeq '\'' = p2 at *
  obtain ⟨b2, l2⟩ := p2
  dsimp only at *
  generalize l2.escapeSeq '"' = p3 at *
  obtain ⟨b3, l3⟩ := p3
  dsimp only at *
  cases b1 <;> cases b2 <;> cases b3 <;> simp_all <;> omega

theorem except_map_eq_ok {ε α β : Type _} {x : Except ε α} {f : α → β} {b : β} :
    x.map f = Except.ok b ↔ ∃ a, x = Except.ok a ∧ f a = b := by
  cases x <;> simp [Except.map]

theorem except_map_eq_error {ε α β : Type _} {x : Except ε α} {f : α → β} {e : ε} :
    x.map f = Except.error e ↔ x = Except.error e := by
  cases x <;> simp [Except.map]

/-- A string token ends at a suffix of the text; without backslashes it ends at the first
delimiter. -/
theorem stringLoop_ok {q : Char} {fuel : Nat} {l l' : Lex} {s : List Char}
    (h : l.stringLoop q fuel = .ok (s, l')) :
    ∃ body, l.rest = body ++ l'.rest ∧ s.length < body.length ∧ l'.line = l.line ∧
      ('\\' ∉ body → body = s ++ [q] ∧ q ∉ s) := by
  induction fuel generalizing l s with
  | zero => simp [Lex.stringLoop] at h
  | succ fuel ih =>
      unfold Lex.stringLoop at h
      split at h
      next => simp [Lex.error] at h
      next c cs hr =>
        split at h
        next hc =>
          simp only [Except.ok.injEq, Prod.mk.injEq] at h
          obtain ⟨rfl, rfl⟩ := h
          exact ⟨[c], by simp [hr], by simp, by simp, fun _ => by simp [hc]⟩
        next hc =>
          split at h
          next hb =>
            simp only [except_map_eq_ok] at h
            obtain ⟨⟨s', l''⟩, h1, h2⟩ := h
            simp only [Prod.mk.injEq] at h2
            obtain ⟨rfl, rfl⟩ := h2
            obtain ⟨body, e1, e2, e3, _⟩ := ih h1
            obtain ⟨pre, hp⟩ := escapes_suffix l
            have hs := escapes_shrinks (l := l) (by simp [hr])
            have hlen := escapes_length (l := l) (by simp [hr])
            refine ⟨pre ++ body, by rw [List.append_assoc, ← e1, hp], ?_, by simp [e3], ?_⟩
            · rw [← hp] at hlen
              simp at hlen ⊢; omega
            intro hn
            have hpre : pre ≠ [] := by
              rintro rfl
              rw [List.nil_append] at hp
              rw [hp] at hs; exact absurd hs (Nat.lt_irrefl _)
            obtain ⟨p0, ps, rfl⟩ := List.exists_cons_of_ne_nil hpre
            rw [hr] at hp
            simp only [List.cons_append, List.cons.injEq] at hp
            exact absurd (by simp [hp.1, hb]) hn
          next hb =>
            simp only [except_map_eq_ok] at h
            obtain ⟨⟨s', l''⟩, h1, h2⟩ := h
            simp only [Prod.mk.injEq] at h2
            obtain ⟨rfl, rfl⟩ := h2
            obtain ⟨body, e1, e2, e3, e4⟩ := ih h1
            refine ⟨c :: body, ?_, by simpa using e2, by simpa using e3, ?_⟩
            · simp only [advance_rest, hr, List.tail_cons] at e1
              rw [hr, e1]; simp
            · intro hn
              simp only [List.mem_cons, not_or] at hn
              obtain ⟨e5, e6⟩ := e4 hn.2
              exact ⟨by simp [e5], by simp [e6, Ne.symm hc]⟩

theorem stringLoop_error {q : Char} {fuel : Nat} {l : Lex} {e : PyErr}
    (hf : l.rest.length < fuel) (h : l.stringLoop q fuel = .error e) :
    ∃ col, e = .amanda msgInvalidString l.line col := by
  induction fuel generalizing l with
  | zero => omega
  | succ fuel ih =>
      unfold Lex.stringLoop at h
      split at h
      next =>
        simp only [Lex.error, Except.error.injEq] at h
        exact ⟨_, h.symm⟩
      next c cs hr =>
        split at h
        next => simp at h
        next hc =>
          split at h
          next hb =>
            simp only [except_map_eq_error] at h
            have hs := escapes_shrinks (l := l) (by simp [hr])
            obtain ⟨col, hcol⟩ := ih (by omega) h
            exact ⟨col, by simpa using hcol⟩
          next hb =>
            simp only [except_map_eq_error] at h
            obtain ⟨col, hcol⟩ := ih (by simp [hr] at hf ⊢; omega) h
            exact ⟨col, by simpa using hcol⟩

theorem string_ok {q : Char} {l l' : Lex} {t : Token} {cs : List Char} {c : Char}
    (hr : l.rest = c :: cs) (h : l.string q = .ok (t, l')) :
    ∃ s body, cs = body ++ l'.rest ∧ s.length < body.length ∧ l'.line = l.line ∧ t.line = l.line ∧ t.tt = .string ∧
      t.lexeme = .text (q :: s ++ [q]) ∧ ('\\' ∉ body → body = s ++ [q] ∧ q ∉ s) := by
  simp only [Lex.string, except_map_eq_ok] at h
  obtain ⟨⟨s, l''⟩, h1, h2⟩ := h
  simp only [Prod.mk.injEq] at h2
  obtain ⟨rfl, rfl⟩ := h2
  obtain ⟨body, e1, e2, e3, e4⟩ := stringLoop_ok h1
  refine ⟨s, body, by simpa [hr] using e1, e2, by simpa using e3, by simpa using e3, rfl, rfl, e4⟩

theorem string_error {q : Char} {l : Lex} {e : PyErr} (h : l.string q = .error e) :
    ∃ col, e = .amanda msgInvalidString l.line col := by
  simp only [Lex.string, except_map_eq_error] at h
  obtain ⟨col, hc⟩ := stringLoop_error (by omega) h
  exact ⟨col, by simpa using hc⟩

end Amanda
