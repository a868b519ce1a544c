import Verif.Syntax

/-!
# The parser: class `Parser` of amanda/compiler/parse.py

The parser asks the lexer for one token at a time.  Lexing does not depend on the parser, so the
state holds the tokens still to come and what `get_token` gives after them (an error, or the end
token again and again).  Every function is modelled by one definition.  Functions that call one
another in a circle go through a table `Rec`; `recN` builds the table by iteration, so its depth
is the only bound of the model (`Props/Parsing.lean` shows it is never reached).
Python's own recursion limit is not modelled.
-/

namespace Amanda

/-- `TokenType.value` (tokens.py:7-102). -/
def TT.value : TT → String
  | .eof => "_EOF_" | .gen => "_GEN_" | .program => "PROGRAM" | .integer => "inteiro" | .real => "real"
  | .string => "cadeia" | .formatStr => "cadeia formatada" | .identifier => "identificador"
  | .lpar => "(" | .rpar => ")" | .dot => "." | .ddot => ".." | .semi => ";" | .comma => ","
  | .lbrace => "{" | .rbrace => "}" | .lbracket => "[" | .rbracket => "]" | .at => "@"
  | .doubleat => "@@" | .colon => ":" | .qmark => "?" | .doublecolon => "::" | .cast => ":>"
  | .arrow => "=>" | .newline => "\\n" | .plus => "+" | .minus => "-" | .star => "*" | .slash => "/"
  | .doubleslash => "//" | .modulo => "%" | .pluseq => "+=" | .minuseq => "-=" | .stareq => "*="
  | .slasheq => "/=" | .less => "<" | .greater => ">" | .lesseq => "<=" | .greatereq => ">="
  | .notequal => "!=" | .equal => "=" | .doubleequal => "==" | .mostra => "MOSTRA" | .e => "E"
  | .ou => "OU" | .nao => "NAO" | .verdadeiro => "VERDADEIRO" | .falso => "FALSO" | .caso => "CASO"
  | .retorna => "RETORNA" | .produz => "PRODUZ" | .se => "SE" | .senao => "SENAO"
  | .senaose => "SENAOSE" | .escolha => "ESCOLHA" | .entao => "ENTAO" | .enquanto => "ENQUANTO"
  | .para => "PARA" | .faca => "FACA" | .de => "DE" | .continua => "CONTINUA" | .quebra => "QUEBRA"
  | .usa => "USA" | .como => "como" | .alvo => "alvo" | .registo => "registo" | .iguala => "IGUALA"
  | .inc => "INC" | .fim => "FIM" | .func => "FUNC" | .met => "MET" | .nulo => "NULO"
  | .vazio => "VAZIO" | .nativa => "NATIVA" | .uniao => "UNIAO" | .classe => "CLASSE"
  | .lexEof => "__eof__"

/-- State of a `Parser` (parse.py:266-270): the lookahead token, the tokens the lexer will deliver,
and what it gives after them. -/
structure PState where
  look : Token
  rest : List Token
  last : Except PyErr Token

/-- The tokens of a text up to and including the first end token, and what comes after: the error
that stops the lexer, or the end token it gives from then on. -/
def Lex.stream (py : PyCfg) : Nat → Lex → List Token × Except PyErr Token
  | 0, _ => ([], .error .fuel)
  | fuel + 1, l =>
      match l.getToken py with
      | .error e => ([], .error e)
      | .ok (t, l) =>
          if t.tt = .lexEof then ([t], (l.getToken py).map Prod.fst)
          else
            let r := Lex.stream py fuel l
            (t :: r.1, r.2)

/-- `Parser.__init__` (parse.py:266-270). -/
def PState.init (py : PyCfg) (src : List Char) : Except PyErr PState :=
  match Lex.stream py (src.length + 1) (Lex.init src) with
  | (t :: ts, last) => .ok { look := t, rest := ts, last := last }
  | ([], .ok t) => .ok { look := t, rest := [], last := .ok t }
  | ([], .error e) => .error e

/-- Parsing functions: may raise, change the state. -/
abbrev P (α : Type) := StateT PState (Except PyErr) α

/-- A bound on the tokens still to be read: the end token counts nothing, a format string counts
its characters too. -/
def Token.weight (t : Token) : Nat :=
  if t.tt = .lexEof then 0 else if t.tt = .formatStr then 1 + t.chars.length else 1

def PState.weight (s : PState) : Nat := s.look.weight + (s.rest.map Token.weight).sum

/-- `error` (parse.py:286-292). -/
def fail {α : Type} (msg : String) : P α := fun s => .error (.amanda msg s.look.line s.look.col)

/-- A Python exception that is not an `AmandaError`. -/
def raiseExc {α : Type} (name : String) : P α := fun _ => .error (.exc name)

/-- `self.lookahead = self.lexer.get_token()`, giving the old lookahead. -/
def nextTok : P Token := fun s =>
  match s.rest with
  | t :: ts => .ok (s.look, { s with look := t, rest := ts })
  | [] =>
      match s.last with
      | .ok t => .ok (s.look, { s with look := t })
      | .error e => .error e

/-- The lookahead token. -/
def look : P Token := fun s => .ok (s.look, s)

/-- `match` (parse.py:298-299). -/
def matchTok (tt : TT) : P Bool := fun s => .ok (s.look.tt = tt, s)

/-- The rounds of a `while` loop, at most `n` of them. -/
def loopN {α : Type} (cond : TT → Bool) (body : α → P α) : Nat → α → P α
  | 0, _ => fun _ => .error .fuel
  | n + 1, a => fun s => if cond s.look.tt then (body a >>= loopN cond body n) s else .ok (a, s)

/-- `while cond(self.lookahead.token): body`.  Bodies read at least one token, so there are no more
rounds than tokens. -/
def loop {α : Type} (cond : TT → Bool) (body : α → P α) (a : α) : P α :=
  fun s => loopN cond body (s.weight + 1) a s

/-- `skip_newlines` (parse.py:294-296). -/
def skipNewlines : P Unit := loop (· = .newline) (fun _ => do let _ ← nextTok; pure ()) ()

/-- The message of `consume` without `error` (parse.py:282-284). -/
def msgExpected (expected : TT) (t : Token) : String :=
  "era esperado o símbolo '" ++ expected.value ++ "',porém recebeu o símbolo '" ++
    String.ofList t.chars ++ "'"

/-- `consume` without `skip_newlines` (parse.py:272-284; `delimited` is never set). -/
def consume (expected : TT) (msg : Option String := none) : P Token := fun s =>
  if s.look.tt = expected then nextTok s else fail (msg.getD (msgExpected expected s.look)) s

/-- `consume(.., skip_newlines=True)` (parse.py:272-284). -/
def consumeNl (expected : TT) : P Token := do
  skipNewlines
  consume expected

/-- If the lookahead is `tt`, consume it; tells whether it was there. -/
def accept (tt : TT) : P Bool := fun s =>
  if s.look.tt = tt then (do let _ ← nextTok; pure true : P Bool) s else .ok (false, s)

def msgMissingTerm : String := "as instruções devem ser delimitadas por ';' ou por uma nova linha"
def msgExpectedId (symbol : String) : String :=
  "era esperado um identificador depois do símbolo '" ++ symbol ++ "'"
def msgIllegalAssign : String := "alvo inválido para atribuição"

/-- `end_stmt` (parse.py:446-454). -/
def endStmt : P Unit := fun s =>
  if s.look.tt = .newline ∨ s.look.tt = .semi ∨ s.look.tt = .lexEof then
    (do let _ ← nextTok; pure () : P Unit) s
  else fail msgMissingTerm s

/-- The functions that are called again after some token was read. -/
structure Rec where
  type : P TyExpr
  pattern : P Pat
  equality : P Expr
  assignment : P Expr
  unary : P Expr
  block : P (List Stmt)

/-! ## Types -/

/-- `_is_maybe_type` (parse.py:411-416). -/
def isMaybeType : P Bool := accept .qmark

def msgNoGenerics : String := "Pelo menos 1 parâmetro genérico deve ser especificado."

/-- The items between brackets of `generic_args` and `generic_params` (parse.py:543-555, 562-574). -/
def genericList {α : Type} (item : P α) : P (List α) := do
  let _ ← consume .lbracket
  let t ← look
  if t.tt = .rbracket then fail msgNoGenerics
  else do
    let l ← loop (· ≠ .rbracket) (fun acc => do
      let x ← item
      let _ ← accept .comma
      pure (acc ++ [x])) []
    let _ ← consume .rbracket
    pure l

/-- `generic_args` (parse.py:540-557). -/
def genericArgs (r : Rec) : P (Option (List TyExpr)) := do
  let t ← look
  if t.tt = .lbracket then do
    let l ← genericList r.type
    pure (some l)
  else pure none

/-- `generic_params` (parse.py:559-576). -/
def genericParams : P (List Token) := do
  let t ← look
  if t.tt = .lbracket then genericList (consume .identifier) else pure []

/-- `type_path` (parse.py:418-427). -/
def typePath (r : Rec) (head : Token) : P TyExpr := do
  let comps ← loop (· = .dot) (fun acc => do
    let _ ← consume .dot
    let t ← consume .identifier
    pure (acc ++ [t.chars])) [head.chars]
  let args ← genericArgs r
  let maybe ← isMaybeType
  pure (.path head comps maybe args)

/-- The part of `type` after a name (parse.py:431-435). -/
def typeName (r : Rec) (name : Token) : P TyExpr := do
  let t ← look
  if t.tt = .dot then typePath r name
  else do
    let args ← genericArgs r
    let maybe ← isMaybeType
    pure (.name name maybe args)

/-- `type` (parse.py:429-444). -/
def typeL (r : Rec) : P TyExpr := do
  let t ← look
  if t.tt = .identifier then do
    let name ← consume .identifier
    typeName r name
  else if t.tt = .lbracket then do
    let _ ← consume .lbracket
    let el ← r.type
    let _ ← consume .rbracket
    let maybe ← isMaybeType
    pure (.array el maybe)
  else fail "Tipo inválido. Esperava um identificador ou a descrição de um vector"

/-! ## Format strings -/

/-- What the loops of `parse_format_str` and `parse_fstr_expr` cut a format string into
(parse.py:1158-1166, 1197-1236). -/
inductive FmtPiece where
  | text (cs : List Char)
  | expr (cs : List Char)
  | unterminated
  deriving DecidableEq, Repr

/-- A literal piece, left out when empty (parse.py:1223-1225, 1234-1236). -/
def fmtFlush (cur : List Char) : List FmtPiece := if cur = [] then [] else [.text cur]

/-- The cutting; `inExpr` tells which of the two loops is running, `cur` what it has collected. -/
def fmtSplit : Bool → List Char → List Char → List FmtPiece
  | false, [], cur => fmtFlush cur
  | false, '{' :: '{' :: cs, cur => fmtSplit false cs (cur ++ ['{'])
  | false, c :: cs, cur =>
      if c = '{' then fmtFlush cur ++ fmtSplit true cs [] else fmtSplit false cs (cur ++ [c])
  | true, [], _ => [.unterminated]
  | true, c :: cs, cur =>
      if c = '}' then .expr cur :: fmtSplit false cs [] else fmtSplit true cs (cur ++ [c])

/-- `str.strip()`. -/
def strip (py : PyCfg) (cs : List Char) : List Char :=
  ((cs.dropWhile py.isSpace).reverse.dropWhile py.isSpace).reverse

/-- The second half of `parse_fstr_expr` (parse.py:1169-1193): parse the text of an embedded
expression on its own.  What follows the expression in the text is ignored. -/
def fstrExpr (py : PyCfg) (r : Rec) (token : Token) (cs : List Char) : P Expr := fun s =>
  let text := strip py cs
  if text = [] then
    fail "String de formatação inválida. Expressões vazias não são permitidas" s
  else if text.take 2 = ['f', '\''] ∨ text.take 2 = ['f', '"'] then
    fail "String de formatação inválida. Não pode ter uma f-string dentro de outra f-string" s
  else
    match (PState.init py cs).bind r.equality with
    | .ok (e, _) => .ok (e, s)
    | .error (.amanda msg _ _) => .error (.amanda msg token.line token.col)
    | .error e => .error e

/-- The parts of a format string, in order. -/
def fmtParts (py : PyCfg) (r : Rec) (token : Token) : List FmtPiece → P (List Expr)
  | [] => pure []
  | .text cs :: ps => do
      let l ← fmtParts py r token ps
      pure (.const { tt := .string, lexeme := .text cs, line := token.line, col := token.col } :: l)
  | .expr cs :: ps => do
      let e ← fstrExpr py r token cs
      let l ← fmtParts py r token ps
      pure (e :: l)
  | .unterminated :: _ =>
      fail "String de formatação inválida. Expressões devem ser delimitadas por '{' e '}'"

/-- `lexeme[1:-1]` (parse.py:1198). -/
def Token.inner (t : Token) : List Char := t.chars.tail.dropLast

def FmtPiece.isExpr : FmtPiece → Bool | .expr _ => true | _ => false

/-- `parse_format_str` (parse.py:1195-1239).  Without an expression the only part is returned; an
empty format string has none: `IndexError`. -/
def parseFormatStr (py : PyCfg) (r : Rec) : P Expr := do
  let token ← nextTok
  let pieces := fmtSplit false token.inner []
  let parts ← fmtParts py r token pieces
  if pieces.any FmtPiece.isExpr then pure (.fmtStr token parts)
  else
    match parts with
    | p :: _ => pure p
    | [] => raiseExc "IndexError"

/-! ## Expressions -/

/-- The rest of a path after its first name (parse.py:1248-1260). -/
def pathTail (head : Token) : P Expr := do
  let comps ← loop (· = .doublecolon) (fun acc => do
    let _ ← consume .doublecolon
    let t ← consume .identifier
      (some "Expressão de caminho inválida. Esperava-se um identificador após o símbolo '::'")
    pure (acc ++ [t])) [head]
  pure (.path comps)

/-- The name branch of `primary` (parse.py:1244-1260). -/
def primaryName : P Expr := do
  let t ← consume .identifier
  let n ← look
  if n.tt = .doublecolon then pathTail t else pure (.var t)

/-- The elements of a list literal (parse.py:1277-1284). -/
def listElements (r : Rec) : P (List Expr) := do
  let t ← look
  if t.tt = .rbracket then pure []
  else do
    skipNewlines
    let e ← r.equality
    loop (· ≠ .rbracket) (fun acc => do
      let _ ← consumeNl .comma
      skipNewlines
      let e ← r.equality
      skipNewlines
      pure (acc ++ [e])) [e]

/-- The list branch of `primary` (parse.py:1272-1288). -/
def primaryList (r : Rec) : P Expr := do
  let tok ← consume .lbracket
  skipNewlines
  let ty ← r.type
  let _ ← consume .colon
  let es ← listElements r
  let _ ← consumeNl .rbracket
  pure (.list tok ty es)

/-- The body of an `iguala` arm (parse.py:877-887), `tok` being the arrow; gives the arm's token
too. -/
def armBody (r : Rec) (tok : Token) : P (Token × Token × List Stmt) := do
  let t ← look
  if t.tt = .faca then do
    let tok ← consume .faca
    let b ← r.block
    let _ ← consume .fim (some
      "Os blocos de uma alternativa da 'instrução' iguala devem ser terminados com a palavra reservada 'fim'.")
    pure (tok, tok, b)
  else do
    let e ← r.equality
    pure (tok, e.token, [.produz e.token e])

/-- `iguala_arm` (parse.py:872-889). -/
def igualaArm (r : Rec) : P Arm := do
  skipNewlines
  let pat ← r.pattern
  let tok ← consume .arrow
  skipNewlines
  let (tok, bodyTok, body) ← armBody r tok
  skipNewlines
  pure (.mk tok pat bodyTok body)

/-- The inner loop of `iguala_stmt` (parse.py:897-899). -/
def moreArms (r : Rec) (acc : List Arm) : P (List Arm) :=
  loop (· = .comma) (fun acc => do
    let _ ← consume .comma
    let a ← igualaArm r
    pure (acc ++ [a])) acc

/-- `iguala_stmt` (parse.py:891-904). -/
def igualaStmt (r : Rec) : P Expr := do
  let tok ← consume .iguala
  let target ← r.equality
  let arms ← loop (· ≠ .fim) (fun acc => do
    let a ← igualaArm r
    moreArms r (acc ++ [a])) []
  let _ ← consume .fim (some "Esperava-se encontrar o token 'fim' no final da instrução iguala.")
  pure (.iguala tok target arms)

/-- The literals of `primary` (parse.py:1261-1268). -/
def isLiteral : TT → Bool
  | .integer | .real | .string | .nulo | .verdadeiro | .falso => true
  | _ => false

/-- `primary` (parse.py:1241-1304). -/
def primary (py : PyCfg) (r : Rec) : P Expr := do
  let t ← look
  if t.tt = .identifier then primaryName
  else if isLiteral t.tt then do
    let t ← nextTok
    pure (.const t)
  else if t.tt = .lbracket then primaryList r
  else if t.tt = .formatStr then parseFormatStr py r
  else if t.tt = .lpar then do
    let _ ← consume .lpar
    let e ← r.equality
    let _ ← consume .rpar
    pure e
  else if t.tt = .alvo then do
    let t ← consume .alvo
    pure (.alvo t)
  else if t.tt = .iguala then igualaStmt r
  else fail ("início inválido de expressão: '" ++ String.ofList t.chars ++ "'")

/-- An argument, possibly named (parse.py:1311-1314, 1319-1322, 1327-1329). -/
def argument (r : Rec) : P Expr := do
  let e ← r.equality
  let t ← look
  match e with
  | .var name =>
      if t.tt = .colon then do
        let _ ← consume .colon
        let a ← r.equality
        pure (.named name a)
      else pure e
  | _ => pure e

/-- The first argument, if there is one (parse.py:1310-1314). -/
def firstArg (r : Rec) : P (List Expr) := do
  let t ← look
  if t.tt = .rpar then pure []
  else do
    let a ← argument r
    pure [a]

/-- `args` (parse.py:1306-1325). -/
def callArgs (r : Rec) : P (List Expr) := do
  skipNewlines
  let first ← firstArg r
  skipNewlines
  let l ← loop (· = .comma) (fun acc => do
    let _ ← consume .comma
    skipNewlines
    let a ← argument r
    skipNewlines
    pure (acc ++ [a])) first
  skipNewlines
  pure l

/-- One round of the loop of `call` (parse.py:1126-1144). -/
def callSuffix (r : Rec) (e : Expr) : P Expr := do
  let t ← look
  if t.tt = .lpar then do
    let _ ← consume .lpar
    let args ← callArgs r
    let _ ← consume .rpar (some "os argumentos da função devem ser delimitados por ')'")
    pure (.call e args)
  else if t.tt = .lbracket then do
    let _ ← consume .lbracket
    let i ← r.equality
    let t ← consume .rbracket
    pure (.index t e i)
  else do
    let _ ← consume .dot
    let m ← consume .identifier
    pure (.get e m)

/-- The end of `call`: `:> type` (parse.py:1145-1149). -/
def callCast (r : Rec) (e : Expr) : P Expr := do
  let t ← look
  if t.tt = .cast then do
    let t ← consume .cast
    let ty ← r.type
    pure (.converta t e ty)
  else pure e

/-- `call` (parse.py:1123-1149). -/
def callL (py : PyCfg) (r : Rec) : P Expr := do
  let e ← primary py r
  let e ← loop (fun t => t = .lpar || t = .dot || t = .lbracket) (callSuffix r) e
  callCast r e

/-- `unary` (parse.py:1115-1121). -/
def unaryL (py : PyCfg) (r : Rec) : P Expr := do
  let t ← look
  if t.tt = .plus ∨ t.tt = .minus ∨ t.tt = .nao then do
    let t ← nextTok
    let e ← r.unary
    pure (.un t e)
  else callL py r

/-- The loops of `equality`, `comparison`, `addition` and `term`: operators of one level, operands
from the next (parse.py:1033-1083). -/
def binLevel (ops : TT → Bool) (operand : P Expr) : P Expr := do
  let e ← operand
  loop ops (fun e => do
    let op ← nextTok
    let e' ← operand
    pure (.bin op e e')) e

/-- Operators of `term` (parse.py:1074-1080). -/
def isTermOp : TT → Bool
  | .star | .doubleslash | .slash | .modulo | .e => true
  | _ => false

/-- Operators of `addition` (parse.py:1064). -/
def isAddOp : TT → Bool
  | .plus | .minus | .ou => true
  | _ => false

/-- Operators of `comparison` (parse.py:1052-1057). -/
def isCompOp : TT → Bool
  | .greater | .greatereq | .less | .lesseq => true
  | _ => false

/-- Operators of `equality` (parse.py:1035). -/
def isEqOp : TT → Bool
  | .doubleequal | .notequal => true
  | _ => false

/-- `term` (parse.py:1072-1083, 1331-1341). -/
def term (py : PyCfg) (r : Rec) : P Expr := binLevel isTermOp (unaryL py r)

/-- `addition` (parse.py:1062-1070, 1343-1347). -/
def addition (py : PyCfg) (r : Rec) : P Expr := binLevel isAddOp (term py r)

/-- `comparison` (parse.py:1040-1060). -/
def comparison (py : PyCfg) (r : Rec) : P Expr := binLevel isCompOp (addition py r)

/-- `equality` (parse.py:970-974, 1033-1038). -/
def equalityL (py : PyCfg) (r : Rec) : P Expr := binLevel isEqOp (comparison py r)

/-- The target and the new value as an assignment node (parse.py:1025-1030). -/
def mkAssign (tok : Token) (target value : Expr) : Expr :=
  match target with
  | .get _ _ => .set target value
  | .index _ _ _ => .indexSet tok target value
  | _ => .assign tok target value

/-- `assignment` (parse.py:1019-1031). -/
def assignmentL (py : PyCfg) (r : Rec) : P Expr := do
  let e ← equalityL py r
  let t ← look
  if t.tt = .equal then do
    let tok ← consume .equal
    if e.isAssignable then do
      let v ← r.assignment
      pure (mkAssign tok e v)
    else fail msgIllegalAssign
  else pure e

/-- `compound_operator` (parse.py:976-985). -/
def compoundOp : TT → Option (TT × Char)
  | .pluseq => some (.plus, '+')
  | .minuseq => some (.minus, '-')
  | .stareq => some (.star, '*')
  | .slasheq => some (.slash, '/')
  | _ => none

/-- The right side of a compound assignment (parse.py:1002-1016): for a field the operator is
forgotten. -/
def compoundRhs (py : PyCfg) (r : Rec) (eq op : Token) (e : Expr) : P Expr :=
  match e with
  | .get _ _ => do
      let v ← r.assignment
      pure (.set e v)
  | .index _ _ _ => do
      let v ← equalityL py r
      pure (.indexSet op e (.bin op e v))
  | _ => do
      let v ← equalityL py r
      pure (.assign eq e (.bin op e v))

/-- `compound_assignment` and `expression` (parse.py:967-968, 987-1017). -/
def expression (py : PyCfg) (r : Rec) : P Expr := do
  let e ← assignmentL py r
  let t ← look
  match compoundOp t.tt with
  | none => pure e
  | some (tt, c) =>
      if e.isAssignable then do
        let t ← nextTok
        compoundRhs py r { t with tt := .equal, lexeme := .text ['='] }
          { t with tt := tt, lexeme := .text [c] } e
      else fail msgIllegalAssign

/-! ## Patterns -/

/-- The arguments of a pattern (parse.py:862-869). -/
def patternArgs (r : Rec) : P (List Pat) := do
  let _ ← consume .lpar
  let p ← r.pattern
  skipNewlines
  let l ← loop (· = .comma) (fun acc => do
    let _ ← consume .comma
    let p ← r.pattern
    pure (acc ++ [p])) [p]
  let _ ← consume .rpar
  pure l

/-- `pattern` and `capture_or_adt_pattern` (parse.py:834-870).  A literal other than an integer or a
text is declared unreachable: an exception. -/
def patternL (py : PyCfg) (r : Rec) : P Pat := do
  let e ← primary py r
  let t ← look
  match e with
  | .path comps =>
      if t.tt = .lpar then do
        let args ← patternArgs r
        pure (.adtPath comps args)
      else pure (.adtPath comps [])
  | .var tok =>
      if t.tt = .lpar then do
        let args ← patternArgs r
        pure (.adtVar tok args)
      else pure (.bind tok)
  | .const tok =>
      if tok.tt = .integer then pure (.int tok)
      else if tok.tt = .string then pure (.str tok)
      else raiseExc "NotImplementedError"
  | _ => fail "Padrão inválido"

/-! ## Declarations and statements -/

/-- The attributes of an annotation (parse.py:1096-1105).  `attrs` is a dict: a repeated name
keeps its place and takes the new value. -/
def annotationAttrs : P (List (List Char × List Char)) := do
  let l ← loop (· ≠ .rpar) (fun acc => do
    let a ← consume .identifier (some "Esperava-se o nome do atributo da anotação")
    let _ ← consume .equal
    let v ← consume .string
    let _ ← accept .comma
    pure (if acc.any (·.1 = a.chars) then
      acc.map fun p => if p.1 = a.chars then (p.1, v.chars) else p
    else acc ++ [(a.chars, v.chars)])) []
  let _ ← consume .rpar
  pure l

/-- `annotation_body` (parse.py:1085-1106). -/
def annotationBody : P Annotation := do
  let tok ← consume .identifier
  let hasAttrs ← accept .lpar
  if hasAttrs then do
    let t ← look
    if t.tt = .rpar then
      fail ("A anotação " ++ String.ofList tok.chars ++
        " deve especificar atributos. Caso não possua atributos, remova os parênteses")
    else do
      let attrs ← annotationAttrs
      pure { name := tok.chars, attrs := attrs, tok := tok }
  else pure { name := tok.chars, attrs := [], tok := tok }

/-- `annotations` (parse.py:1108-1113) and `module_annotations` (parse.py:323-328). -/
def annotationList (mark : TT) : P (List Annotation) :=
  loop (· = mark) (fun acc => do
    let _ ← consume mark
    let a ← annotationBody
    pure (acc ++ [a])) []

/-- One parameter after its name was read (parse.py:663-665, 669-671). -/
def paramTail (r : Rec) (name : Token) : P Param := do
  let _ ← consume .colon (some "esperava-se o símbolo ':'.")
  let ty ← r.type
  pure { name := name, ty := ty }

/-- `formal_params` (parse.py:658-673). -/
def formalParams (r : Rec) : P (List Param) := do
  skipNewlines
  let t ← look
  if t.tt = .identifier then do
    let name ← consumeNl .identifier
    let p ← paramTail r name
    loop (· ≠ .rpar) (fun acc => do
      let _ ← consumeNl .comma
      let name ← consumeNl .identifier
      let p ← paramTail r name
      skipNewlines
      pure (acc ++ [p])) [p]
  else pure []

/-- The result type of a function (parse.py:465-471). -/
def returnType (r : Rec) : P (Option TyExpr) := do
  let c ← accept .colon
  if c then do
    let v ← accept .vazio
    if v then pure none
    else do
      let ty ← r.type
      pure (some ty)
  else pure none

/-- `function_header` (parse.py:456-478). -/
def functionHeader (r : Rec) : P (Token × List Param × Option TyExpr) := do
  let name ← consume .identifier (some (msgExpectedId "func"))
  let _ ← consume .lpar
  let params ← formalParams r
  let _ ← consume .rpar (some "os parâmetros da função devem estar delimitados por  ')'")
  let ret ← returnType r
  pure (name, params, ret)

/-- `function_decl` and `native_func_decl` (parse.py:480-485, 525-538). -/
def functionDecl (r : Rec) (ann : List Annotation) : P Stmt := do
  let _ ← consume .func
  let native ← accept .nativa
  let (name, params, ret) ← functionHeader r
  if native then do
    endStmt
    pure (.func name params ret none true [])
  else do
    let body ← r.block
    let _ ← consume .fim (some "O corpo de uma função deve ser terminado com a directiva 'fim'")
    pure (.func name params ret (some body) false ann)

/-- The parameters of a method after `alvo` (parse.py:498-501). -/
def methodParams (r : Rec) : P (List Param) := do
  let c ← accept .comma
  if c then formalParams r else pure []

/-- The result type of a method (parse.py:506-509). -/
def methodReturn (r : Rec) : P (Option TyExpr) := do
  let c ← accept .colon
  if c then do
    let ty ← r.type
    pure (some ty)
  else pure none

/-- `method_decl` (parse.py:487-523). -/
def methodDecl (r : Rec) (ann : List Annotation) : P Stmt := do
  let _ ← consume .met
  let generics ← genericParams
  let ty ← r.type
  let _ ← consume .doublecolon
  let name ← consume .identifier (some (msgExpectedId "::"))
  let _ ← consume .lpar
  let _ ← consume .alvo
    (some "Primeiro parâmetro de um método deve ser a palavra reservada 'alvo'")
  let params ← methodParams r
  let _ ← consume .rpar (some "os parâmetros de um método devem estar delimitados por  ')'")
  let ret ← methodReturn r
  let body ← r.block
  let _ ← consume .fim (some "O corpo de um método deve ser terminado com a directiva 'fim'")
  pure (.method generics ty name params ret body ann)

/-- The parameter types of a variant (parse.py:609-620). -/
def variantParams (r : Rec) : P (List TyExpr) := do
  let p ← accept .lpar
  if p then do
    skipNewlines
    let ty ← r.type
    let l ← loop (· = .comma) (fun acc => do
      let _ ← consume .comma
      skipNewlines
      let ty ← r.type
      skipNewlines
      pure (acc ++ [ty])) [ty]
    let _ ← consume .rpar
    pure l
  else pure []

/-- `uniao_variant` (parse.py:607-621). -/
def uniaoVariant (r : Rec) : P UniaoVariant := do
  let name ← consume .identifier
  let ps ← variantParams r
  pure { name := name, params := ps }

/-- The variants of `uniao_body` (parse.py:596-603). -/
def uniaoVariants (r : Rec) : P (List UniaoVariant) := do
  let t ← look
  if t.tt = .identifier then do
    let v ← uniaoVariant r
    skipNewlines
    loop (· = .comma) (fun acc => do
      let _ ← consume .comma
      skipNewlines
      let v ← uniaoVariant r
      pure (acc ++ [v])) [v]
  else pure []

/-- `uniao_decl` and `uniao_body` (parse.py:578-605). -/
def uniaoDecl (r : Rec) (ann : List Annotation) : P Stmt := do
  let _ ← consume .uniao
  let name ← consume .identifier
  let generics ← genericParams
  skipNewlines
  let vs ← uniaoVariants r
  skipNewlines
  let _ ← consume .fim (some "O corpo de uma união deve ser terminado com o símbolo fim")
  pure (.uniao name generics vs ann)

/-- `get_decl_assign` (parse.py:932-940). -/
def declAssign (py : PyCfg) (r : Rec) (name : Token) : P (Option Expr) := do
  let t ← look
  if t.tt = .equal then do
    let tok ← consume .equal
    let e ← equalityL py r
    pure (some (.assign tok (.var name) e))
  else pure none

/-- `simple_decl` (parse.py:942-946). -/
def simpleDecl (py : PyCfg) (r : Rec) (name : Token) : P Stmt := do
  let tok ← consume .colon
  let ty ← r.type
  let a ← declAssign py r name
  pure (.varDecl tok name ty a)

/-- `multi_decl` (parse.py:948-965). -/
def multiDecl (r : Rec) (name : Token) : P (List Stmt) := do
  let names ← loop (· = .comma) (fun acc => do
    let _ ← consume .comma
    let n ← consume .identifier (some (msgExpectedId ","))
    pure (acc ++ [n])) [name]
  let tok ← consume .colon
  let ty ← r.type
  pure (names.map fun n => .varDecl tok n ty none)

/-- The declaration of one line of a record, after the name (parse.py:649-654).  A name without a
type declares nothing. -/
def fieldDecl (py : PyCfg) (r : Rec) (name : Token) : P (List Stmt) := do
  let t ← look
  if t.tt = .colon then do
    let d ← simpleDecl py r name
    pure [d]
  else if t.tt = .comma then multiDecl r name
  else pure []

/-- One round of `registo_body` (parse.py:641-655). -/
def registoLine (py : PyCfg) (r : Rec) (acc : List Stmt) : P (List Stmt) := do
  let t ← look
  if t.tt = .newline then do
    let _ ← nextTok
    skipNewlines
    pure acc
  else if t.tt = .identifier then do
    let name ← consume .identifier
    let ds ← fieldDecl py r name
    endStmt
    pure (acc ++ ds)
  else fail "O corpo de um registo deve conter apenas as declarações dos campos do registo"

/-- `registo_decl` and `registo_body` (parse.py:623-656).  The test for `TT.EOF` never succeeds: the
lexer's end token is another value. -/
def registoDecl (py : PyCfg) (r : Rec) (ann : List Annotation) : P Stmt := do
  let _ ← consume .registo
  let name ← consume .identifier
  let generics ← genericParams
  let fields ← loop (fun t => t ≠ .fim && t ≠ .eof) (registoLine py r) []
  let _ ← consume .fim (some "O corpo de um registo deve ser terminado com o símbolo fim")
  pure (.registo name generics fields ann)

/-- `senao` branch of `se`, `se iguala` (parse.py:734-736, 759-761). -/
def elseBranch (r : Rec) : P (Option (List Stmt)) := do
  let c ← accept .senao
  if c then do
    let b ← r.block
    pure (some b)
  else pure none

/-- `se_iguala_stmt` (parse.py:748-782). -/
def seIguala (py : PyCfg) (r : Rec) (token : Token) : P Stmt := do
  let _ ← consume .iguala
  let target ← equalityL py r
  let _ ← consume .arrow
  let pat ← patternL py r
  let _ ← consume .entao
    (some "Esperava-se o símbolo 'entao' após o padrão da instrução 'se iguala'")
  let thenB ← r.block
  let elseB ← elseBranch r
  let _ ← consume .fim (some "esperava-se a símbolo fim para terminar a directiva 'se iguala'")
  let blockTok : Token := { tt := .program, lexeme := .text [], line := 1, col := 1 }
  let elseTok := if elseB.isSome then blockTok else token
  pure (.expr (.iguala token target
    [.mk pat.token pat blockTok thenB, .mk elseTok (.bind wildcardTok) elseTok (elseB.getD [])]))

/-- `senaose_branch` (parse.py:784-789; the loop at 732-733). -/
def elseIfs (py : PyCfg) (r : Rec) : P (List ElseIf) :=
  loop (· = .senaose) (fun acc => do
    let tok ← consume .senaose
    let c ← equalityL py r
    let _ ← consume .entao
    let b ← r.block
    pure (acc ++ [.mk tok c b])) []

/-- `se_statement` (parse.py:723-746). -/
def seStatement (py : PyCfg) (r : Rec) : P Stmt := do
  let token ← consume .se
  let t ← look
  if t.tt = .iguala then seIguala py r token
  else do
    let cond ← equalityL py r
    let _ ← consume .entao
    let thenB ← r.block
    let elsifs ← elseIfs py r
    let elseB ← elseBranch r
    let _ ← consume .fim (some "esperava-se a símbolo fim para terminar a directiva 'se'")
    pure (.se token cond thenB elsifs elseB)

/-- `enquanto_stmt` (parse.py:791-800). -/
def enquantoStmt (py : PyCfg) (r : Rec) : P Stmt := do
  let token ← consume .enquanto
  let cond ← equalityL py r
  let _ ← consume .faca
  let b ← r.block
  let _ ← consume .fim (some "esperava-se o símbolo fim para terminar a directiva 'enquanto'")
  pure (.enquanto token cond b)

/-- The increment of a range (parse.py:917-919). -/
def incPart (py : PyCfg) (r : Rec) : P (Option Expr) := do
  let c ← accept .inc
  if c then do
    let e ← equalityL py r
    pure (some e)
  else pure none

/-- `para_stmt`, `for_expression`, `range_expression` (parse.py:802-810, 906-920). -/
def paraStmt (py : PyCfg) (r : Rec) : P Stmt := do
  let token ← consume .para
  let name ← consume .identifier
  let _ ← consume .de
  let start ← equalityL py r
  let _ ← consume .ddot
  let stop ← equalityL py r
  let inc ← incPart py r
  let _ ← consume .faca
  let b ← r.block
  let _ ← consume .fim (some "esperava-se o símbolo fim para terminar a directiva 'para'")
  pure (.para token name start stop inc b)

/-- The default case of `escolha` (parse.py:827-830). -/
def defaultCase (r : Rec) : P (Option (List Stmt)) := do
  let c ← accept .senao
  if c then do
    let _ ← consume .colon
    let b ← r.block
    pure (some b)
  else pure none

/-- `escolha_stmt` (parse.py:812-832). -/
def escolhaStmt (py : PyCfg) (r : Rec) : P Stmt := do
  let token ← consume .escolha
  let e ← equalityL py r
  let _ ← consume .colon
  skipNewlines
  let cases ← loop (· = .caso) (fun acc => do
    let tok ← consume .caso
    let c ← equalityL py r
    let _ ← consume .colon
    let b ← r.block
    pure (acc ++ [.mk tok c b])) []
  let d ← defaultCase r
  let _ ← consume .fim
  pure (.escolha token e cases d)

/-- `retorna_statement` (parse.py:708-715). -/
def retornaStmt (py : PyCfg) (r : Rec) : P Stmt := do
  let token ← consume .retorna
  let t ← look
  if t.tt = .semi ∨ t.tt = .newline then do
    endStmt
    pure (.retorna token none)
  else do
    let e ← equalityL py r
    endStmt
    pure (.retorna token (some e))

/-- What may follow a lone name in `decl_stmt` (parse.py:924-928). -/
def declTail (py : PyCfg) (r : Rec) (e : Expr) : P (List Stmt) := do
  let t ← look
  match e with
  | .var name =>
      if t.tt = .colon then do
        let d ← simpleDecl py r name
        pure [d]
      else if t.tt = .comma then multiDecl r name
      else pure [.expr e]
  | _ => pure [.expr e]

/-- `decl_stmt` (parse.py:922-930). -/
def declStmt (py : PyCfg) (r : Rec) : P (List Stmt) := do
  let e ← expression py r
  let ds ← declTail py r e
  endStmt
  pure ds

/-- `statement` (parse.py:675-706, 717-721). -/
def statement (py : PyCfg) (r : Rec) : P (List Stmt) := do
  let t ← look
  if t.tt = .mostra then do
    let tok ← consume .mostra
    let e ← equalityL py r
    endStmt
    pure [.mostra tok e]
  else if t.tt = .retorna then do
    let s ← retornaStmt py r
    pure [s]
  else if t.tt = .produz then do
    let tok ← consume .produz
    let e ← equalityL py r
    endStmt
    pure [.produz tok e]
  else if t.tt = .enquanto then do
    let s ← enquantoStmt py r
    pure [s]
  else if t.tt = .se then do
    let s ← seStatement py r
    pure [s]
  else if t.tt = .para then do
    let s ← paraStmt py r
    pure [s]
  else if t.tt = .escolha then do
    let s ← escolhaStmt py r
    pure [s]
  else if t.tt = .quebra ∨ t.tt = .continua then do
    let tok ← nextTok
    endStmt
    pure [.loopCtl tok]
  else if t.tt = .iguala then do
    let e ← igualaStmt r
    pure [.expr e]
  else declStmt py r

/-- What annotations may precede (parse.py:391-396). -/
def isAnnotated : TT → Bool
  | .func | .met | .registo | .uniao => true
  | _ => false

/-- The annotations before a declaration (parse.py:387-399). -/
def declAnnotations : P (List Annotation) := do
  let t ← look
  if t.tt = .at then do
    let ann ← annotationList .at
    skipNewlines
    let t ← look
    if isAnnotated t.tt then pure ann
    else fail "As anotações devem ser seguidas de uma função, método ou registo"
  else pure []

/-- `declaration` (parse.py:386-409). -/
def declaration (py : PyCfg) (r : Rec) : P (List Stmt) := do
  let ann ← declAnnotations
  let t ← look
  if t.tt = .func then do
    let s ← functionDecl r ann
    pure [s]
  else if t.tt = .met then do
    let s ← methodDecl r ann
    pure [s]
  else if t.tt = .registo then do
    let s ← registoDecl py r ann
    pure [s]
  else if t.tt = .uniao then do
    let s ← uniaoDecl r ann
    pure [s]
  else statement py r

/-- One round of the loops of `block` and `module` (parse.py:315-320, 371-375). -/
def blockItem (py : PyCfg) (r : Rec) (acc : List Stmt) : P (List Stmt) := do
  let t ← look
  if t.tt = .newline then do
    let _ ← consume .newline
    pure acc
  else do
    let ss ← declaration py r
    pure (acc ++ ss)

/-- Tokens at which `block` stops (parse.py:364-370). -/
def endsBlock : TT → Bool
  | .fim | .senao | .senaose | .caso | .lexEof => true
  | _ => false

/-- `block` (parse.py:359-376). -/
def blockL (py : PyCfg) (r : Rec) : P (List Stmt) := loop (fun t => !endsBlock t) (blockItem py r) []

/-- The items of `usa ... => [..]` (parse.py:345-351). -/
def usaItems : P (List (List Char)) := do
  let _ ← consume .lbracket
  let t ← consume .identifier
  let l ← loop (· = .comma) (fun acc => do
    let _ ← consume .comma
    let t ← consume .identifier
    pure (acc ++ [t.chars])) [t.chars]
  let _ ← consume .rbracket
  pure l

/-- `usa_stmt` (parse.py:330-357). -/
def usaStmt : P Stmt := do
  let token ← consume .usa
  let module ← consume .string
  let arrow ← accept .arrow
  if arrow then do
    let t ← look
    if t.tt = .identifier then do
      let alias ← consume .identifier
      pure (.usa token module (.scoped alias))
    else if t.tt = .lbracket then do
      let items ← usaItems
      pure (.usa token module (.item items))
    else
      fail "Instrução 'usa' inválida. Esperava-se um identificador ou uma lista de identificadores"
  else do
    endStmt
    pure (.usa token module .global)

/-- `module` (parse.py:304-321). -/
def moduleL (py : PyCfg) (r : Rec) : P Tree := do
  skipNewlines
  let ann ← annotationList .doubleat
  let usas ← loop (· = .usa) (fun acc => do
    let u ← usaStmt
    skipNewlines
    pure (acc ++ [u])) []
  let stmts ← loop (· ≠ .lexEof) (blockItem py r) usas
  pure { annotations := ann, stmts := stmts }

/-- A parsing function whose bound is used up. -/
def noFuel {α : Type} : P α := fun _ => .error .fuel

/-- One more level of every function. -/
def Rec.up (py : PyCfg) (r : Rec) : Rec where
  type := typeL r
  pattern := patternL py r
  equality := equalityL py r
  assignment := assignmentL py r
  unary := unaryL py r
  block := blockL py r

/-- The functions with at most `n` nested calls through the table. -/
def recN (py : PyCfg) : Nat → Rec
  | 0 => ⟨noFuel, noFuel, noFuel, noFuel, noFuel, noFuel⟩
  | n + 1 => (recN py n).up py

/-- `parse` (parse.py:1350-1355) on the text of a file. -/
def parse (py : PyCfg) (src : List Char) : Except PyErr Tree := do
  let s ← PState.init py src
  let (t, _) ← moduleL py (recN py (s.weight + 1)) s
  pure t

end Amanda
