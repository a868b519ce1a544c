import Verif.Props.Arith
import Verif.Props.Heap

/-!
# C53: reading from standard input
-/

namespace Amanda

variable {F : Type} [FloatOps F]

/-- C53, the part that holds: `leia` shows its prompt and consumes exactly the next line; a
build with debug assertions returns that line without its line feed, a release build (the
default) returns it with the line feed. Missing: the line feed should be gone in both. -/
theorem leia_reads_a_line_partial (cfg : Cfg) (p : Val F) (shown line : String) (rest : List String)
    (w : World F) (hp : displayVal w.heap p = .ok shown) (hi : w.inp = (line ++ "\n") :: rest) :
    callNative cfg "embutidos" "leia" [p] w =
      .ok (.str (if cfg.debug then line else line ++ "\n"),
        { w with out := w.out ++ shown, inp := rest }) := by
  simp only [callNative, if_true, nLeia, nEscreva, nArg, List.getElem?_cons_zero, Res.at, hp,
    except_bind_ok, readLine, hi]
  cases hd : cfg.debug with
  | false => simp
  | true =>
      simp only [if_true, String.toList_append, List.reverse_append]
      have : ("\n" : String).toList.reverse = ['\n'] := by decide
      rw [this]
      simp

theorem Decimal.all_digits {ds : List Char} {n : Nat} (h : Decimal ds n) :
    ∀ c ∈ ds, c.isDigit = true := by
  induction h with
  | digit d hd => simpa using hd
  | snoc d _ hd ih =>
      intro c hc
      rcases List.mem_append.1 hc with h | h
      · exact ih c h
      · rw [List.mem_singleton.1 h]
        exact hd

/-- A text that ends in a line feed is not an integer. -/
theorem parseI64_line_feed (line : String) : parseI64 (line ++ "\n") = none := by
  cases h : parseI64 (line ++ "\n") with
  | none => rfl
  | some n =>
      exfalso
      have hm : '\n' ∈ (line ++ "\n").toList := by
        rw [String.toList_append]
        exact List.mem_append.2 (.inr (by decide))
      have hnd : ¬ ('\n').isDigit = true := by decide
      have key : ∀ ds k, Decimal ds k → '\n' ∉ ds := fun ds k hd hm => hnd (hd.all_digits _ hm)
      obtain ⟨_, hs⟩ := (parseI64_iff _ _).1 h
      cases hs with
      | plain hd => exact key _ _ hd hm
      | plus e hd =>
          rw [e] at hm
          exact key _ _ hd (by simpa using hm)
      | minus e hd =>
          rw [e] at hm
          exact key _ _ hd (by simpa using hm)

/-- C53 fails: in a release build (the distributed executable made by setup.py) `leia_int` rejects every complete line, whatever
the user types. -/
theorem leia_int_violated (cfg : Cfg) (hr : cfg.debug = false) (p : Val F) (shown line : String)
    (rest : List String) (w : World F) (hp : displayVal w.heap p = .ok shown)
    (hi : w.inp = (line ++ "\n") :: rest) :
    callNative cfg "embutidos" "leia_int" [p] w =
      .error (.err "Valor introduzido não é um inteiro válido",
        { w with out := w.out ++ shown, inp := rest }) := by
  have h := leia_reads_a_line_partial cfg p shown line rest w hp hi
  simp only [callNative, if_true] at h ⊢
  simp only [nLeiaInt, h, except_bind_ok, hr, Val.takeStr, Res.at, Bool.false_eq_true, if_false,
    parseI64_line_feed]

/-- Typing `5` at the prompt `n: `. -/
example (g : String → List String) :
    callNative ⟨false, g⟩ "embutidos" "leia_int" [.str "n: "]
      (⟨[], "", ["5\n", "6\n"]⟩ : World WholeFloat) =
      .error (.err "Valor introduzido não é um inteiro válido", ⟨[], "n: ", ["6\n"]⟩) :=
  leia_int_violated ⟨false, g⟩ rfl (.str "n: ") "n: " "5" ["6\n"] ⟨[], "", ["5\n", "6\n"]⟩ rfl rfl

end Amanda
