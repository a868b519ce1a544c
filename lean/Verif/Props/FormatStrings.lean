import Verif.Props.Limits
import Verif.Props.Parsing

/-!
# Format strings (C24)

A format string is a list of pieces: texts, to be shown as they are, and expressions.  `weave` is what
it has to show.
-/

namespace Amanda

open Source Codegen Compiled

/-! ## Cutting the text -/

/-- The text between the quotes of a format string with the given pieces: braces of a text are
doubled, expressions stand between braces. -/
def fmtSource : List FmtPiece → List Char
  | [] => []
  | .text cs :: ps => cs.flatMap (fun c => if c = '{' then ['{', '{'] else [c]) ++ fmtSource ps
  | .expr cs :: ps => '{' :: cs ++ '}' :: fmtSource ps
  | .unterminated :: _ => ['{']

/-- Pieces that can be written down: texts are not empty and do not follow each other, the text of an
expression does not begin with an opening brace and contains no closing one. -/
def fmtWritable : List FmtPiece → Bool
  | [] => true
  | .text cs :: .text _ :: _ => cs.isEmpty && false
  | .text cs :: ps => !cs.isEmpty && fmtWritable ps
  | .expr cs :: ps => cs.head? != some '{' && !cs.contains '}' && fmtWritable ps
  | .unterminated :: _ => false

theorem fmtSplit_text (cs rest cur : List Char) :
    fmtSplit false (cs.flatMap (fun c => if c = '{' then ['{', '{'] else [c]) ++ rest) cur =
      fmtSplit false rest (cur ++ cs) := by
  induction cs generalizing cur with
  | nil => simp
  | cons c cs ih =>
      by_cases h : c = '{'
      · subst h
        simp only [List.flatMap_cons, if_true, List.cons_append, List.nil_append]
        rw [fmtSplit, ih]
        simp
      · simp only [List.flatMap_cons, if_neg h, List.cons_append, List.nil_append]
        rw [fmtSplit, if_neg h, ih]
        · simp
        · intro cs' hc
          exact absurd hc h

theorem fmtSplit_expr (cs rest cur : List Char) (h : cs.contains '}' = false) :
    fmtSplit true (cs ++ '}' :: rest) cur = .expr (cur ++ cs) :: fmtSplit false rest [] := by
  induction cs generalizing cur with
  | nil => simp [fmtSplit]
  | cons c cs ih =>
      simp only [List.contains_cons, Bool.or_eq_false_iff, beq_eq_false_iff_ne] at h
      rw [List.cons_append, fmtSplit, if_neg (fun e => h.1 e.symm), ih _ h.2]
      simp

theorem fmtSplit_source_aux (ps : List FmtPiece) (h : fmtWritable ps = true) (cur : List Char)
    (hc : cur ≠ [] → ∀ cs qs, ps ≠ .text cs :: qs) :
    fmtSplit false (fmtSource ps) cur = fmtFlush cur ++ ps := by
  induction ps generalizing cur with
  | nil => simp [fmtSource, fmtSplit]
  | cons p ps ih =>
      cases p with
      | unterminated => simp [fmtWritable] at h
      | text cs =>
          have hcur : cur = [] := by
            by_cases e : cur = []
            · exact e
            · exact absurd rfl (hc e cs ps)
          subst hcur
          have hw : cs ≠ [] ∧ fmtWritable ps = true ∧ ∀ c2 qs, ps ≠ .text c2 :: qs := by
            cases ps with
            | nil => simp [fmtWritable] at h; exact ⟨h, rfl, by simp⟩
            | cons q qs =>
                cases q with
                | text c2 => simp [fmtWritable] at h
                | expr c2 => simp [fmtWritable] at h ⊢; exact h
                | unterminated => simp [fmtWritable] at h
          rw [fmtSource, fmtSplit_text, ih hw.2.1 _ (fun _ => hw.2.2)]
          simp [fmtFlush, hw.1]
      | expr cs =>
          simp only [fmtWritable, Bool.and_eq_true, bne_iff_ne, ne_eq, Bool.not_eq_true'] at h
          have h2 := ih h.2 [] (fun e => absurd rfl e)
          rw [fmtSource, List.cons_append, fmtSplit, if_pos rfl, fmtSplit_expr _ _ _ h.1.2, h2]
          · simp [fmtFlush]
          · intro cs' _ e
            cases cs with
            | nil => simp at e
            | cons c cs =>
                have := (List.cons.inj e).1
                simp [this] at h

/-- **C24, cutting.** The parser cuts a format string into the pieces it was written from. -/
theorem fmtSplit_source (ps : List FmtPiece) (h : fmtWritable ps = true) : fmtSplit false (fmtSource ps) [] = ps := by
  simpa [fmtFlush] using fmtSplit_source_aux ps h [] (fun e => absurd rfl e)

example : fmtWritable [.text "a{".toList, .expr "x + 1".toList, .expr "y".toList, .text "}".toList] = true ∧
    fmtSource [.text "a{".toList, .expr "x + 1".toList, .expr "y".toList, .text "}".toList] = "a{{{x + 1}{y}}".toList := by
  decide

/-! ## The value -/

/-- A piece of a format string, with its expression. -/
inductive FPart where
  | text (s : String)
  | value (e : TExpr)

/-- What the parser makes of a piece (parse.py:1203-1205, 1227): a text becomes a constant without
quotes. -/
def FPart.part (line : Nat) : FPart → TExpr
  | .text s => .const line s .unknown
  | .value e => e

def FPart.values : List FPart → List TExpr
  | [] => []
  | .text _ :: ps => FPart.values ps
  | .value e :: ps => e :: FPart.values ps

/-- **Specification.** The texts as they are, with the texts `ds` in place of the expressions. -/
def weave : List FPart → List String → String
  | [], _ => ""
  | .text s :: ps, ds => s ++ weave ps ds
  | .value _ :: ps, d :: ds => d ++ weave ps ds
  | .value _ :: ps, [] => weave ps []

section
variable {F : Type} [FloatOps F]

/-- Texts that `Const::from_str` (binload.rs:41-67) takes for themselves: no truth value, `nulo` or
number, and the first character is no quote and takes one byte. -/
def PlainText (F : Type) [FloatOps F] (s : String) : Prop :=
  s ≠ "verdadeiro" ∧ s ≠ "falso" ∧ s ≠ "nulo" ∧ parseI64 s = none ∧ (FloatOps.parse s : Option F) = none ∧
  ∃ c cs, s.toList = c :: cs ∧ c.utf8Size = 1 ∧ c ≠ '"' ∧ c ≠ '\''

theorem constOfStr_plain {s : String} (h : PlainText F s) : (constOfStr s : Option (Val F)) = some (.str s) := by
  obtain ⟨h1, h2, h3, h4, h5, c, cs, h6, h7, h8, h9⟩ := h
  unfold constOfStr
  rw [if_neg h1, if_neg h2, if_neg h3, h4]
  simp only [h5, h6, unquote]
  rw [if_neg (by simp [h7]), if_neg (by simp [h8, h9])]
  simp only [Option.map_some]
  rw [← h6, String.ofList_toList]

/-- The values of all parts. -/
def mixed : List FPart → List (Val F) → List (Val F)
  | [], _ => []
  | .text s :: ps, vs => .str s :: mixed ps vs
  | .value _ :: ps, v :: vs => v :: mixed ps vs
  | .value _ :: ps, [] => mixed ps []

/-- The texts of all parts. -/
def shown : List FPart → List String → List String
  | [], _ => []
  | .text s :: ps, ds => s :: shown ps ds
  | .value _ :: ps, d :: ds => d :: shown ps ds
  | .value _ :: ps, [] => shown ps []

theorem weave_shown (ps : List FPart) (ds : List String) : String.join (shown ps ds) = weave ps ds := by
  induction ps generalizing ds with
  | nil => rfl
  | cons p ps ih =>
      cases p with
      | text s => simp [shown, weave, String.join_cons, ih]
      | value e =>
          cases ds with
          | nil => exact ih []
          | cons d ds => simp [shown, weave, String.join_cons, ih]

theorem display_mixed {h : Heap F} : ∀ (ps : List FPart) (vs : List (Val F)) (ds : List String),
    vs.mapM (displayVal h) = .ok ds → (mixed ps vs).mapM (displayVal h) = .ok (shown ps ds)
  | [], _, _, _ => rfl
  | .text s :: ps, vs, ds, hd => by
      have ih := display_mixed ps vs ds hd
      simp only [mixed, shown, List.mapM_cons, ih]
      rfl
  | .value _ :: ps, [], ds, hd => by
      cases hd
      exact display_mixed ps [] [] rfl
  | .value _ :: ps, v :: vs, ds, hd => by
      rw [List.mapM_cons] at hd
      obtain ⟨d, h1, hd⟩ := except_bind_eq_ok.1 hd
      obtain ⟨ds', h2, hd⟩ := except_bind_eq_ok.1 hd
      cases hd
      have ih := display_mixed ps vs ds' h2
      simp only [mixed, shown, List.mapM_cons, h1, ih]
      rfl

variable {cfg : Cfg} {L : Lang} {p : Pos} {line : Nat}

theorem parts_value (ps : List FPart) (hp : ∀ s, .text s ∈ ps → PlainText F s) :
    ∀ (n : Nat) (st st' : St F) (vs : List (Val F)), evalEs cfg L n p (FPart.values ps) st = .done vs st' →
      ∃ m, evalEs cfg L (m + 1) p (ps.map (FPart.part line)) st = .done (mixed ps vs) st' := by
  induction ps with
  | nil =>
      intro n st st' vs h
      cases n with
      | zero => cases h
      | succ n => exact ⟨n, by cases h; rfl⟩
  | cons q ps ih =>
      have ih := ih fun s hs => hp s (List.mem_cons_of_mem _ hs)
      intro n st st' vs h
      cases q with
      | text s =>
          obtain ⟨m, hm⟩ := ih n st st' vs h
          refine ⟨m + 1, ?_⟩
          rw [List.map_cons, evalEs]
          have hc : evalE cfg L (m + 1) p (FPart.part line (.text s)) st = .done (.str s) st := by
            simp only [FPart.part, evalE, literal, constOfStr_plain (hp s (List.mem_cons_self ..))]
            rfl
          change Out.next (evalE cfg L (m + 1) p (FPart.part line (.text s)) st) _ = _
          rw [hc]
          change Out.next (evalEs cfg L (m + 1) p (ps.map (FPart.part line)) st) _ = _
          rw [hm]
          rfl
      | value e =>
          cases n with
          | zero => cases h
          | succ n =>
              rw [FPart.values, evalEs] at h
              change Out.next (evalE cfg L n p e st) _ = _ at h
              cases he : evalE cfg L n p e st with
              | stuck => rw [he] at h; cases h
              | fuel => rw [he] at h; cases h
              | fail msg w => rw [he] at h; cases h
              | leave c s => rw [he] at h; cases h
              | done v st1 =>
                  rw [he] at h
                  change Out.next (evalEs cfg L n p (FPart.values ps) st1) _ = _ at h
                  cases hes : evalEs cfg L n p (FPart.values ps) st1 with
                  | stuck => rw [hes] at h; cases h
                  | fuel => rw [hes] at h; cases h
                  | fail msg w => rw [hes] at h; cases h
                  | leave c s => rw [hes] at h; cases h
                  | done vs' st2 =>
                      rw [hes] at h
                      cases h
                      obtain ⟨m, hm⟩ := ih n st1 _ vs' hes
                      refine ⟨n + (m + 1), ?_⟩
                      rw [List.map_cons, evalEs]
                      have h1 := mono (F := F) cfg L (n := n) (m := n + (m + 1)) (by omega)
                      have h2 := mono (F := F) cfg L (n := m + 1) (m := n + (m + 1)) (by omega)
                      have e1 : evalE cfg L (n + (m + 1)) p e st = .done v st1 := by
                        rcases h1.e p e st with ⟨_, h⟩ | h <;> rw [he] at h
                        · cases h
                        · exact h.symm
                      have e2 : evalEs cfg L (n + (m + 1)) p (ps.map (FPart.part line)) st1 = .done (mixed ps vs') st' := by
                        rcases h2.es p (ps.map (FPart.part line)) st1 with ⟨_, h⟩ | h <;> rw [hm] at h
                        · cases h
                        · exact h.symm
                      change Out.next (evalE cfg L (n + (m + 1)) p e st) _ = _
                      rw [e1]
                      change Out.next (evalEs cfg L (n + (m + 1)) p (ps.map (FPart.part line)) st1) _ = _
                      rw [e2]
                      rfl

/-- **C24, meaning.** If the expressions of a format string have values that show as `ds`, its value is
its texts with `ds` in between, provided the texts are plain. -/
theorem fstring_value_partial (ps : List FPart) (hp : ∀ s, .text s ∈ ps → PlainText F s) {n : Nat} {st st' : St F}
    {vs : List (Val F)} {ds : List String} (hv : evalEs cfg L n p (FPart.values ps) st = .done vs st')
    (hd : vs.mapM (displayVal st'.world.heap) = .ok ds) :
    ∃ m, evalE cfg L m p (.fmtStr line (ps.map (FPart.part line))) st = .done (.str (weave ps ds)) st' := by
  obtain ⟨m, hm⟩ := parts_value (line := line) ps hp n st st' vs hv
  refine ⟨m + 2, ?_⟩
  simp only [evalE]
  change Out.next (evalEs cfg L (m + 1) p (ps.map (FPart.part line)) st) _ = _
  rw [hm]
  change Out.next (M.res ((mixed ps vs).mapM (displayVal st'.world.heap)) st') _ = _
  rw [display_mixed ps vs ds hd]
  change Out.done (Val.str (String.join (shown ps ds))) st' = _
  rw [weave_shown]

end

/-! ## The code -/

/-- **C24, code.** The code of a format string with plain texts pushes the texts as they are with the
shown values of the expressions in between.  For other texts see `fstring_text_violated`. -/
theorem fstring_code_partial {F : Type} [FloatOps F] {K : Link F} {a : Act F} {W : Wf} {lp : Loop} {s s' : Gen}
    {st st' : St F} {vm : VM F} {k : List (Val F)} {line n : Nat} (hK : LinkOk K) (ps : List FPart)
    (hp : ∀ t, .text t ∈ ps → PlainText F t) (C : Code K a W lp s s')
    (hok : okE W .value (.fmtStr line (ps.map (FPart.part line))) = true)
    (hclean : cleanE (.fmtStr line (ps.map (FPart.part line))) = true)
    (hg : genExpr a.cm.ctx (.fmtStr line (ps.map (FPart.part line))) s = .ok ((), s')) (hh : Here K a st vm s.ip k)
    {vs : List (Val F)} {ds : List String} (hv : evalEs K.cfg K.L n (pos a W) (FPart.values ps) st = .done vs st')
    (hd : vs.mapM (displayVal st'.world.heap) = .ok ds) :
    ∃ vm', Runs K vm vm' ∧ Here K a st' vm' s'.ip (k ++ [.str (weave ps ds)]) := by
  obtain ⟨m, hm⟩ := fstring_value_partial (line := line) ps hp hv hd
  exact (expression_code_correct hK C hok hclean hg hh m).1 _ _ hm

/-- The texts `Const::from_str` takes for something else: the literal pieces of a format string the
parser accepts. -/
def fmtLexemes : Tree → List (List Char)
  | ⟨_, [.mostra _ (.fmtStr _ parts)]⟩ => parts.map fun
      | .const t => t.chars
      | _ => []
  | _ => []

/-- `mostra f"007{1}"`, as the parser gives it. -/
def fmtProg : Prog := only [] [⟨[], none⟩]
  [.mostra 1 (.fmtStr 1 ([.text "007", .value (lit "1")].map (FPart.part 1)))]

/-- **C24 is violated.** `f"007{1}"` shows `71`: the parser makes a constant without quotes of a literal
piece (parse.py:1203-1205), which `Const::from_str` (binload.rs:41-67) takes for the number 7. -/
theorem fstring_text_violated :
    (parse samplePy "mostra f\"007{1}\"".toList).toOption.map fmtLexemes = some ["007".toList, "1".toList] ∧
    weave [.text "007", .value (lit "1")] ["1"] = "0071" ∧
    machineEnd fmtProg 100 = some (.exited 0 "71\n" "") := by
  decide +kernel

/-- `mostra f"ç{1}"`: the first character takes two bytes. -/
def fmtProg2 : Prog := only [] [⟨[], none⟩]
  [.mostra 1 (.fmtStr 1 ([.text "ç", .value (lit "1")].map (FPart.part 1)))]

/-- **C24 is violated.** An image with a literal piece that begins with a character of more than one byte
cannot be loaded: the slice `[..1]` panics (binload.rs:59). -/
theorem fstring_bytes_violated : machineEnd fmtProg2 100 = some (.panicked "") := by decide +kernel

/-! ## An instance -/

theorem wholeFloat_plain : PlainText WholeFloat "x = " := by
  refine ⟨by decide, by decide, by decide, by decide +kernel, by decide +kernel, 'x', " = ".toList, by decide +kernel, by decide, by decide, by decide⟩

/-- `f"x = {1 + 2}"`. -/
def fmtProg3 : Prog := only [] [⟨[], none⟩]
  [.expr (.fmtStr 1 ([.text "x = ", .value (op2 .plus (lit "1") (lit "2"))].map (FPart.part 1)))]

example : ∃ (K : Link WholeFloat) (a : Act WholeFloat) (st : St WholeFloat) (vm vm' : VM WholeFloat) (s0 s1 : Gen),
    Here K a st vm s0.ip [] ∧ Runs K vm vm' ∧ Here K a st vm' s1.ip [.str "x = 3"] := by
  have hP : fmtProg3.Ok (fun _ => none) := ok_of_check (by decide +kernel)
  have hS : SlotsFit fmtProg3 := slots_of_check (by decide +kernel)
  obtain ⟨image, hi⟩ := compiles (P := fmtProg3) (by decide +kernel)
  obtain ⟨K, a, st, vm, s0, s1, hK, hcfg, hL, hr, hc, hok, hg, hh⟩ := single_start WholeFloat plainCfg hP hS hi rfl rfl
  have hv : evalEs K.cfg K.L 4 (pos a (fmtProg3.wf (fun _ => none) fmtProg3.main true))
      (FPart.values [.text "x = ", .value (op2 .plus (lit "1") (lit "2"))]) (st.begin fmtProg3.main.path []) =
      .done [.int 3] (st.begin fmtProg3.main.path []) := by
    rw [FPart.values, FPart.values, evalEs]
    change Out.next (evalE K.cfg K.L 3 _ (op2 .plus (lit "1") (lit "2")) _) _ = _
    rw [op2_value (k := 3) rfl (lit_value 1 rfl) (lit_value 1 rfl) (by decide +kernel)]
    rfl
  obtain ⟨vm', h1, h2⟩ := fstring_code_partial hK [.text "x = ", .value (op2 .plus (lit "1") (lit "2"))]
    (by simp only [List.mem_cons, FPart.text.injEq, reduceCtorEq, List.not_mem_nil, or_false]
        rintro t rfl
        exact wholeFloat_plain) hc (by decide +kernel) (by decide +kernel) hg hh hv (ds := ["3"]) rfl
  exact ⟨K, a, _, vm, vm', s0, s1, hh, h1, h2⟩

end Amanda
