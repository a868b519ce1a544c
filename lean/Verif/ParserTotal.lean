import Verif.ParserLemmas

/-!
# Every parsing function reads its tokens or stops with an allowed error
-/

namespace Amanda

variable {py : PyCfg} {K : ParseCfg py} {α β : Type} {n d : Nat} {Q : Token → Prop}
variable {r : Rec} {N : Nat}

/-! ## Expressions -/

theorem tot_pathTail {head : Token} : Tot K n 0 Q (pathTail head) := by
  unfold pathTail
  tot

theorem tot_primaryName : Tot K n 1 Q primaryName := by
  unfold primaryName
  tot

theorem tot_listElements (hr : RecTot K N r) (hn : n ≤ N) : Tot K n 0 Q (listElements r) := by
  unfold listElements
  tot

theorem tot_primaryList (hr : RecTot K N r) (hn : n ≤ N + 1) : Tot K n 1 Q (primaryList r) := by
  unfold primaryList
  tot

theorem tot_armBody {tok : Token} (hr : RecTot K N r) (hn : n ≤ N) : Tot K n 0 Q (armBody r tok) := by
  unfold armBody
  tot

theorem tot_igualaArm (hr : RecTot K N r) (hp : K.err (.exc "NotImplementedError")) (hn : n ≤ N) :
    Tot K n 1 Q (igualaArm r) := by
  unfold igualaArm
  tot

theorem tot_moreArms {acc : List Arm} (hr : RecTot K N r) (hp : K.err (.exc "NotImplementedError")) (hn : n ≤ N) :
    Tot K n 0 Q (moreArms r acc) := by
  unfold moreArms
  tot

theorem tot_igualaStmt (hr : RecTot K N r) (hp : K.err (.exc "NotImplementedError")) (hn : n ≤ N + 1) :
    Tot K n 1 Q (igualaStmt r) := by
  unfold igualaStmt
  tot

theorem tot_primary (hr : RecTot K N r) (hn : n ≤ N + 1) : Tot K n 1 Q (primary py r) := by
  unfold primary
  refine tot_look fun t ht _ => tot_ite (fun _ => tot_primaryName) fun _ => tot_ite (fun h => ?_) fun _ =>
    tot_ite (fun _ => tot_primaryList hr hn) fun _ => tot_ite (fun h => ?_) fun _ => tot_ite (fun _ => ?_) fun _ =>
    tot_ite (fun _ => ?_) fun _ => tot_ite (fun h => tot_igualaStmt hr (K.badPattern t ht h) hn) fun _ => tot_fail _
  · tot
  · exact (tot_parseFormatStr hr hn).mono (Nat.le_refl _) (Nat.le_refl _) fun _ e => e ▸ h
  · tot
  · tot

theorem tot_argument (hr : RecTot K N r) (hn : n ≤ N) : Tot K n 1 Q (argument r) := by
  unfold argument
  tot

theorem tot_firstArg (hr : RecTot K N r) (hn : n ≤ N) : Tot K n 0 Q (firstArg r) := by
  unfold firstArg
  tot

theorem tot_callArgs (hr : RecTot K N r) (hn : n ≤ N) : Tot K n 0 Q (callArgs r) := by
  unfold callArgs
  tot

theorem tot_callSuffix {e : Expr} (hr : RecTot K N r) (hn : n ≤ N + 1) : Tot K n 1 Q (callSuffix r e) := by
  unfold callSuffix
  tot

theorem tot_callCast {e : Expr} (hr : RecTot K N r) (hn : n ≤ N + 1) : Tot K n 0 Q (callCast r e) := by
  unfold callCast
  tot

theorem tot_callL (hr : RecTot K N r) (hn : n ≤ N + 1) : Tot K n 1 Q (callL py r) := by
  unfold callL
  tot

theorem tot_unaryL (hr : RecTot K N r) (hn : n ≤ N + 1) : Tot K n 1 Q (unaryL py r) := by
  unfold unaryL
  refine tot_look fun t ht _ => tot_ite (fun h => ?_) fun _ => by tot
  refine tot_bind1 (tot_next fun x hx => ?_) fun _ => by tot
  rw [hx]
  rcases h with h | h | h <;> rw [h] <;> decide

theorem tot_binLevel {ops : TT → Bool} {m : P Expr} (h : Tot K n 1 (fun _ => True) m) (ho : ops .lexEof = false) :
    Tot K n 1 Q (binLevel ops m) := by
  unfold binLevel
  refine tot_bind1 (tot_of h (Nat.le_refl _) (Nat.le_refl _)) fun _ => tot_loop fun _ =>
    tot_bind1 (tot_next fun t ht => ?_) fun _ => tot_of0 (tot_bind1 (tot_of h (by omega) (by omega)) fun _ => tot_pure _)
  intro he
  simp [he, ho] at ht

theorem tot_equalityL (hr : RecTot K N r) (hn : n ≤ N + 1) : Tot K n 1 Q (equalityL py r) := by
  unfold equalityL comparison addition term
  exact tot_binLevel (tot_binLevel (tot_binLevel (tot_binLevel (tot_unaryL hr hn) rfl) rfl) rfl) rfl

theorem tot_assignmentL (hr : RecTot K N r) (hn : n ≤ N + 1) : Tot K n 1 Q (assignmentL py r) := by
  unfold assignmentL
  tot

theorem tot_compoundRhs {eq op : Token} {e : Expr} (hr : RecTot K N r) (hn : n ≤ N) :
    Tot K n 0 Q (compoundRhs py r eq op e) := by
  unfold compoundRhs
  tot

theorem tot_expression (hr : RecTot K N r) (hn : n ≤ N + 1) : Tot K n 1 Q (expression py r) := by
  unfold expression
  refine tot_bind1 (tot_assignmentL hr hn) fun e => tot_look fun t _ _ => ?_
  split
  · tot
  · refine tot_ite (fun _ => tot_bind0 tot_next0 fun _ => tot_compoundRhs hr (by omega)) fun _ => tot_fail _

/-! ## Patterns -/

theorem tot_patternArgs (hr : RecTot K N r) (hp : K.err (.exc "NotImplementedError")) (hn : n ≤ N) :
    Tot K n 0 Q (patternArgs r) := by
  unfold patternArgs
  tot

theorem tot_patternL (hr : RecTot K N r) (hp : K.err (.exc "NotImplementedError")) (hn : n ≤ N + 1) :
    Tot K n 1 Q (patternL py r) := by
  unfold patternL
  tot

/-! ## Declarations and statements -/

theorem tot_annotationAttrs : Tot K n 0 Q annotationAttrs := by
  unfold annotationAttrs
  tot

theorem tot_annotationBody : Tot K n 0 Q annotationBody := by
  unfold annotationBody
  tot

theorem tot_annotationList {mark : TT} (h : mark ≠ .lexEof) : Tot K n 0 Q (annotationList mark) := by
  unfold annotationList
  exact tot_loop fun _ => tot_bind1 (tot_consume h) fun _ => by tot

theorem tot_paramTail {name : Token} (hr : RecTot K N r) (hn : n ≤ N) : Tot K n 0 Q (paramTail r name) := by
  unfold paramTail
  tot

theorem tot_formalParams (hr : RecTot K N r) (hn : n ≤ N) : Tot K n 0 Q (formalParams r) := by
  unfold formalParams
  tot

theorem tot_returnType (hr : RecTot K N r) (hn : n ≤ N) : Tot K n 0 Q (returnType r) := by
  unfold returnType
  tot

theorem tot_functionHeader (hr : RecTot K N r) (hn : n ≤ N) : Tot K n 0 Q (functionHeader r) := by
  unfold functionHeader
  tot

theorem tot_functionDecl {ann : List Annotation} (hr : RecTot K N r) (hn : n ≤ N + 1) :
    Tot K n 1 Q (functionDecl r ann) := by
  unfold functionDecl
  tot

theorem tot_methodParams (hr : RecTot K N r) (hn : n ≤ N) : Tot K n 0 Q (methodParams r) := by
  unfold methodParams
  tot

theorem tot_methodReturn (hr : RecTot K N r) (hn : n ≤ N) : Tot K n 0 Q (methodReturn r) := by
  unfold methodReturn
  tot

theorem tot_methodDecl {ann : List Annotation} (hr : RecTot K N r) (hn : n ≤ N + 1) :
    Tot K n 1 Q (methodDecl r ann) := by
  unfold methodDecl
  tot

theorem tot_variantParams (hr : RecTot K N r) (hn : n ≤ N) : Tot K n 0 Q (variantParams r) := by
  unfold variantParams
  tot

theorem tot_uniaoVariant (hr : RecTot K N r) (hn : n ≤ N) : Tot K n 1 Q (uniaoVariant r) := by
  unfold uniaoVariant
  tot

theorem tot_uniaoVariants (hr : RecTot K N r) (hn : n ≤ N) : Tot K n 0 Q (uniaoVariants r) := by
  unfold uniaoVariants
  tot

theorem tot_uniaoDecl {ann : List Annotation} (hr : RecTot K N r) (hn : n ≤ N + 1) :
    Tot K n 1 Q (uniaoDecl r ann) := by
  unfold uniaoDecl
  tot

theorem tot_declAssign {name : Token} (hr : RecTot K N r) (hn : n ≤ N) : Tot K n 0 Q (declAssign py r name) := by
  unfold declAssign
  tot

theorem tot_simpleDecl {name : Token} (hr : RecTot K N r) (hn : n ≤ N) : Tot K n 0 Q (simpleDecl py r name) := by
  unfold simpleDecl
  tot

theorem tot_multiDecl {name : Token} (hr : RecTot K N r) (hn : n ≤ N) : Tot K n 0 Q (multiDecl r name) := by
  unfold multiDecl
  tot

theorem tot_fieldDecl {name : Token} (hr : RecTot K N r) (hn : n ≤ N) : Tot K n 0 Q (fieldDecl py r name) := by
  unfold fieldDecl
  tot

theorem tot_registoLine {acc : List Stmt} (hr : RecTot K N r) (hn : n ≤ N) :
    Tot K n 1 Q (registoLine py r acc) := by
  unfold registoLine
  tot

theorem tot_registoDecl {ann : List Annotation} (hr : RecTot K N r) (hn : n ≤ N + 1) :
    Tot K n 1 Q (registoDecl py r ann) := by
  unfold registoDecl
  tot

theorem tot_elseBranch (hr : RecTot K N r) (hn : n ≤ N) : Tot K n 0 Q (elseBranch r) := by
  unfold elseBranch
  tot

theorem tot_seIguala {token : Token} (hr : RecTot K N r) (hp : K.err (.exc "NotImplementedError")) (hn : n ≤ N) :
    Tot K n 0 Q (seIguala py r token) := by
  unfold seIguala
  dsimp only
  tot

theorem tot_elseIfs (hr : RecTot K N r) (hn : n ≤ N) : Tot K n 0 Q (elseIfs py r) := by
  unfold elseIfs
  tot

theorem tot_seStatement (hr : RecTot K N r) (hn : n ≤ N + 1) : Tot K n 1 Q (seStatement py r) := by
  unfold seStatement
  refine tot_bind1 (tot_consume (by decide)) fun token => tot_look fun t ht _ =>
    tot_ite (fun h => tot_seIguala hr (K.badPattern t ht h) (by omega)) fun _ => ?_
  tot

theorem tot_enquantoStmt (hr : RecTot K N r) (hn : n ≤ N + 1) : Tot K n 1 Q (enquantoStmt py r) := by
  unfold enquantoStmt
  tot

theorem tot_incPart (hr : RecTot K N r) (hn : n ≤ N) : Tot K n 0 Q (incPart py r) := by
  unfold incPart
  tot

theorem tot_paraStmt (hr : RecTot K N r) (hn : n ≤ N + 1) : Tot K n 1 Q (paraStmt py r) := by
  unfold paraStmt
  tot

theorem tot_defaultCase (hr : RecTot K N r) (hn : n ≤ N) : Tot K n 0 Q (defaultCase r) := by
  unfold defaultCase
  tot

theorem tot_escolhaStmt (hr : RecTot K N r) (hn : n ≤ N + 1) : Tot K n 1 Q (escolhaStmt py r) := by
  unfold escolhaStmt
  tot

theorem tot_retornaStmt (hr : RecTot K N r) (hn : n ≤ N + 1) : Tot K n 1 Q (retornaStmt py r) := by
  unfold retornaStmt
  tot

theorem tot_declTail {e : Expr} (hr : RecTot K N r) (hn : n ≤ N) : Tot K n 0 Q (declTail py r e) := by
  unfold declTail
  tot

theorem tot_declStmt (hr : RecTot K N r) (hn : n ≤ N + 1) : Tot K n 1 Q (declStmt py r) := by
  unfold declStmt
  tot

theorem tot_statement (hr : RecTot K N r) (hn : n ≤ N + 1) : Tot K n 1 Q (statement py r) := by
  unfold statement
  refine tot_look fun t ht _ => tot_ite (fun _ => by tot) fun _ => tot_ite (fun _ => ?_) fun _ =>
    tot_ite (fun _ => by tot) fun _ => tot_ite (fun _ => ?_) fun _ => tot_ite (fun _ => ?_) fun _ =>
    tot_ite (fun _ => ?_) fun _ => tot_ite (fun _ => ?_) fun _ => tot_ite (fun h => ?_) fun _ =>
    tot_ite (fun h => ?_) fun _ => tot_declStmt hr hn
  · exact tot_bind1 (tot_retornaStmt hr hn) fun _ => tot_pure _
  · exact tot_bind1 (tot_enquantoStmt hr hn) fun _ => tot_pure _
  · exact tot_bind1 (tot_seStatement hr hn) fun _ => tot_pure _
  · exact tot_bind1 (tot_paraStmt hr hn) fun _ => tot_pure _
  · exact tot_bind1 (tot_escolhaStmt hr hn) fun _ => tot_pure _
  · refine tot_bind1 (tot_next fun x hx => ?_) fun _ => by tot
    rw [hx]
    rcases h with h | h <;> rw [h] <;> decide
  · exact tot_bind1 (tot_igualaStmt hr (K.badPattern t ht h) hn) fun _ => tot_pure _

theorem tot_declAnnotations : Tot K n 0 Q declAnnotations := by
  unfold declAnnotations
  refine tot_look fun t _ _ => tot_ite (fun _ => tot_bind0 (tot_annotationList (by decide)) fun _ => ?_) fun _ => tot_pure _
  tot

theorem tot_declaration (hr : RecTot K N r) (hn : n ≤ N + 1) : Tot K n 1 Q (declaration py r) := by
  unfold declaration
  refine tot_bind0 tot_declAnnotations fun ann => tot_look fun t _ _ => tot_ite (fun _ => ?_) fun _ =>
    tot_ite (fun _ => ?_) fun _ => tot_ite (fun _ => ?_) fun _ => tot_ite (fun _ => ?_) fun _ => tot_statement hr hn
  · exact tot_bind1 (tot_functionDecl hr hn) fun _ => tot_pure _
  · exact tot_bind1 (tot_methodDecl hr hn) fun _ => tot_pure _
  · exact tot_bind1 (tot_registoDecl hr hn) fun _ => tot_pure _
  · exact tot_bind1 (tot_uniaoDecl hr hn) fun _ => tot_pure _

theorem tot_blockItem {acc : List Stmt} (hr : RecTot K N r) (hn : n ≤ N + 1) : Tot K n 1 Q (blockItem py r acc) := by
  unfold blockItem
  refine tot_look fun t _ _ => tot_ite (fun _ => by tot) fun _ =>
    tot_bind1 (tot_declaration hr hn) fun _ => tot_pure _

theorem tot_blockL (hr : RecTot K N r) (hn : n ≤ N + 1) : Tot K n 0 Q (blockL py r) := by
  unfold blockL
  exact tot_loop fun _ => tot_blockItem hr hn

theorem tot_usaItems : Tot K n 0 Q usaItems := by
  unfold usaItems
  tot

theorem tot_usaStmt : Tot K n 1 Q usaStmt := by
  unfold usaStmt
  tot

theorem tot_moduleL (hr : RecTot K N r) (hn : n ≤ N + 1) : Tot K n 0 Q (moduleL py r) := by
  unfold moduleL
  refine tot_bind0 tot_skipNewlines fun _ => tot_bind0 (tot_annotationList (by decide)) fun _ =>
    tot_bind0 (tot_loop fun _ => tot_bind1 tot_usaStmt fun _ => by tot) fun _ =>
    tot_bind0 (tot_loop fun _ => tot_blockItem hr hn) fun _ => tot_pure _

/-- The table of depth `N` handles fewer than `N` tokens. -/
theorem recTot (N : Nat) : RecTot K N (recN py N) := by
  induction N with
  | zero =>
      constructor <;> first
        | exact fun _ _ h => absurd h (Nat.not_lt_zero _)
        | exact fun _ _ _ h => absurd h (Nat.not_lt_zero _)
        | exact fun _ _ _ _ h => absurd h (Nat.not_lt_zero _)
  | succ N ih =>
      have heq : Tot K (N + 1) 1 (fun _ => True) (recN py (N + 1)).equality := tot_equalityL ih (by omega)
      exact ⟨tot_typeL ih (by omega), fun hp => tot_patternL ih hp (by omega), heq,
        tot_assignmentL ih (by omega), tot_unaryL ih (by omega), tot_blockL ih (by omega),
        fun t ht hf cs hl => K.fmtInner t ht hf (N + 1) cs hl fun s hs hw => by
          have := heq s hs hw trivial
          cases hm : (recN py (N + 1)).equality s with
          | ok p => trivial
          | error e => rw [hm] at this; exact this⟩

end Amanda
