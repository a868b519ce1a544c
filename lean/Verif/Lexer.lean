import Verif.ExceptLemmas

/-!
# The lexer: amanda/compiler/tokens.py and class `Lexer` of amanda/compiler/parse.py

Texts are lists of characters.  Python's character classes and the conversions `int(..)` and
`float(..)` are parameters (`PyCfg`).
-/

namespace Amanda

/-- How compiler code stops: an `AmandaError` (error.py:72-102, message, line, column) or some
other Python exception, which ends in a traceback.  `fuel` marks an exhausted recursion bound of
the model; statements show it is not reached. -/
inductive PyErr where
  | amanda (msg : String) (line : Nat) (col : Int)
  | exc (name : String)
  | fuel
  deriving DecidableEq, Repr

/-- What the lexer uses of Python's `str`, `int` and `float` (parse.py:68, 125-141, 187, 237-241). -/
structure PyCfg where
  /-- `str.isalpha` -/
  isAlpha : Char → Bool
  /-- `str.isdigit` -/
  isDigit : Char → Bool
  /-- `str.isalnum` -/
  isAlnum : Char → Bool
  /-- `str.isspace` -/
  isSpace : Char → Bool
  /-- `int(text)`; `none` is `ValueError` -/
  parseInt : List Char → Option Nat
  /-- `str(float(text))`; `none` is `ValueError` -/
  parseReal : List Char → Option String

/-- `TokenType` (tokens.py:7-102).  `lexEof` is `Lexer.EOF` (parse.py:16), which is a different
value from `TokenType.EOF`. -/
inductive TT where
  | eof | gen | program
  | integer | real | string | formatStr | identifier
  | lpar | rpar | dot | ddot | semi | comma | lbrace | rbrace | lbracket | rbracket
  | at | doubleat | colon | qmark | doublecolon | cast | arrow | newline
  | plus | minus | star | slash | doubleslash | modulo | pluseq | minuseq | stareq | slasheq
  | less | greater | lesseq | greatereq | notequal | equal | doubleequal
  | mostra | e | ou | nao | verdadeiro | falso | caso | retorna | produz | se | senao | senaose
  | escolha | entao | enquanto | para | faca | de | continua | quebra | usa | como | alvo
  | registo | iguala | inc | fim | func | met | nulo | vazio | nativa | uniao | classe
  | lexEof
  deriving DecidableEq, Repr

/-- `Token.TOKENS` (tokens.py:105-124): the values from `LPAR` to `DOUBLEEQUAL`. -/
def symbolTable : List (List Char × TT) :=
  [(['('], .lpar), ([')'], .rpar), (['.'], .dot), (['.', '.'], .ddot), ([';'], .semi),
   ([','], .comma), (['{'], .lbrace), (['}'], .rbrace), (['['], .lbracket), ([']'], .rbracket),
   (['@'], .at), (['@', '@'], .doubleat), ([':'], .colon), (['?'], .qmark),
   ([':', ':'], .doublecolon), ([':', '>'], .cast), (['=', '>'], .arrow), (['\\', 'n'], .newline),
   (['+'], .plus), (['-'], .minus), (['*'], .star), (['/'], .slash), (['/', '/'], .doubleslash),
   (['%'], .modulo), (['+', '='], .pluseq), (['-', '='], .minuseq), (['*', '='], .stareq),
   (['/', '='], .slasheq), (['<'], .less), (['>'], .greater), (['<', '='], .lesseq),
   (['>', '='], .greatereq), (['!', '='], .notequal), (['='], .equal), (['=', '='], .doubleequal)]

/-- `KEYWORDS` (tokens.py:140-149): the values from `MOSTRA` to `CLASSE` in lower case. -/
def keywordTable : List (List Char × TT) :=
  [("mostra".toList, .mostra), ("e".toList, .e), ("ou".toList, .ou), ("nao".toList, .nao),
   ("verdadeiro".toList, .verdadeiro), ("falso".toList, .falso), ("caso".toList, .caso),
   ("retorna".toList, .retorna), ("produz".toList, .produz), ("se".toList, .se),
   ("senao".toList, .senao), ("senaose".toList, .senaose), ("escolha".toList, .escolha),
   ("entao".toList, .entao), ("enquanto".toList, .enquanto), ("para".toList, .para),
   ("faca".toList, .faca), ("de".toList, .de), ("continua".toList, .continua),
   ("quebra".toList, .quebra), ("usa".toList, .usa), ("como".toList, .como),
   ("alvo".toList, .alvo), ("registo".toList, .registo), ("iguala".toList, .iguala),
   ("inc".toList, .inc), ("fim".toList, .fim), ("func".toList, .func), ("met".toList, .met),
   ("nulo".toList, .nulo), ("vazio".toList, .vazio), ("nativa".toList, .nativa),
   ("uniao".toList, .uniao), ("classe".toList, .classe)]

/-- `lexeme` of a token: text, the `int` of a numeral, or a `float`, kept as `str(float(..))`. -/
inductive Lexeme where
  | text (s : List Char)
  | int (n : Nat)
  | real (repr : String)
  deriving DecidableEq, Repr

/-- `Token` (tokens.py:118-137). -/
structure Token where
  tt : TT
  lexeme : Lexeme
  line : Nat
  col : Int
  deriving DecidableEq, Repr

/-- `Token.from_char` (tokens.py:126-133). -/
def Token.fromChar (s : List Char) (line : Nat) (col : Int) : Option Token :=
  (symbolTable.lookup s).map fun tt => { tt := tt, lexeme := .text s, line := line, col := col }

/-- `_ambiguous_chars` and `is_ambiguous_char` (tokens.py:152-161). -/
def isAmbiguous (c : Char) : Bool :=
  symbolTable.any fun (s, _) => decide (s.length > 1) && s.head? == some c

/-- State of a `Lexer` (parse.py:22-28).  The head of `rest` is `current_char`, the empty list is
`Lexer.EOF`; the state before the first character is read is not represented. -/
structure Lex where
  rest : List Char
  line : Nat
  pos : Nat
  deriving DecidableEq, Repr

/-- `pos` after `advance` leaves `cs` to read (parse.py:36-43). -/
def nextPos (cs : List Char) (pos : Nat) : Nat := if cs.isEmpty then pos else pos + 1

/-- `Lexer.__init__` and the first `advance` (parse.py:22-28, 227-228). -/
def Lex.init (src : List Char) : Lex := { rest := src, line := 1, pos := nextPos src 1 }

/-- `advance` (parse.py:36-43). -/
def Lex.advance (l : Lex) : Lex :=
  match l.rest with
  | [] => l
  | _ :: cs => { l with rest := cs, pos := nextPos cs l.pos }

/-- `lookahead` (parse.py:45-49); `none` is the empty string. -/
def Lex.lookahead (l : Lex) : Option Char := l.rest.tail.head?

/-- The loops `while p(current_char): result += current_char; advance()`
(parse.py:66-71, 76-77, 125-127, 133-135, 187-189). -/
def spanFrom (p : Char → Bool) : List Char → Nat → List Char × List Char × Nat
  | [], pos => ([], [], pos)
  | c :: cs, pos =>
      if p c then
        let r := spanFrom p cs (nextPos cs pos)
        (c :: r.1, r.2.1, r.2.2)
      else ([], c :: cs, pos)

/-- `spanFrom` on the lexer state. -/
def Lex.span (p : Char → Bool) (l : Lex) : List Char × Lex :=
  let r := spanFrom p l.rest l.pos
  (r.1, { l with rest := r.2.1, pos := r.2.2 })

/-- `error` (parse.py:51-55). -/
def Lex.error {α : Type} (l : Lex) (msg : String) : Except PyErr α := .error (.amanda msg l.line l.pos)

/-- `INVALID_SYMBOL` (parse.py:18) for the current character. -/
def Lex.invalidSymbol {α : Type} (l : Lex) : Except PyErr α :=
  l.error ("O símbolo '" ++ (match l.rest with | [] => "__eof__" | c :: _ => c.toString) ++
    "' não foi reconhecido")

/-- `comment` (parse.py:75-77). -/
def Lex.comment (l : Lex) : Lex := (l.span fun c => c != '\n').2

/-- `whitespace` (parse.py:65-73). -/
def Lex.whitespace (py : PyCfg) (l : Lex) : Lex :=
  let l := (l.span fun c => c != '\n' && py.isSpace c).2
  if l.rest.head? = some '#' then l.comment else l

/-- `newline` (parse.py:57-63). -/
def Lex.newline (l : Lex) : Token × Lex :=
  ({ tt := .newline, lexeme := .text ['\\', 'n'], line := l.line, col := l.pos },
   Lex.advance { l with line := l.line + 1, pos := 1 })

/-- The end of `number` (parse.py:136-143): the token for the numeral `text`. -/
def numberToken (py : PyCfg) (text : List Char) (l : Lex) : Except PyErr (Token × Lex) :=
  let col : Int := l.pos - (text.length + 1)
  if '.' ∈ text then
    match py.parseReal text with
    | some r => .ok ({ tt := .real, lexeme := .real r, line := l.line, col := col }, l)
    | none => .error (.exc "ValueError")
  else
    match py.parseInt text with
    | some n => .ok ({ tt := .integer, lexeme := .int n, line := l.line, col := col }, l)
    | none => .error (.exc "ValueError")

/-- `number` (parse.py:123-143). -/
def Lex.number (py : PyCfg) (l : Lex) : Except PyErr (Token × Lex) :=
  let (whole, l) := l.span py.isDigit
  match l.rest with
  | '.' :: d :: _ =>
      if py.isDigit d then
        let (frac, l) := l.advance.span py.isDigit
        numberToken py (whole ++ '.' :: frac) l
      else numberToken py whole l
  | _ => numberToken py whole l

/-- `escape_seq` (parse.py:145-151): whether the sequence was read, and the state after it. -/
def Lex.escapeSeq (c : Char) (l : Lex) : Bool × Lex :=
  if l.lookahead = some c then (true, l.advance.advance) else (false, l)

/-- What the control sequence branch of `string` writes, and the state after it
(parse.py:158-170).  After a sequence is read the next attempts look at whatever character is
current then. -/
def Lex.escapes (l : Lex) : List Char × Lex :=
  let (b1, l) := l.escapeSeq 'n'
  let (b2, l) := l.escapeSeq '\''
  let (b3, l) := l.escapeSeq '"'
  if b1 || b2 || b3 then
    ((if b1 then ['\n'] else []) ++ (if b2 then ['\''] else []) ++ (if b3 then ['"'] else []), l)
  else (['\\'], l.advance)

def msgInvalidString : String := "A sequência de caracteres não foi delimitada"

/-- The loop of `string` (parse.py:158-175) and the `advance` over the closing delimiter, with a
bound on the number of rounds. -/
def Lex.stringLoop (symbol : Char) : Nat → Lex → Except PyErr (List Char × Lex)
  | 0, _ => .error .fuel
  | fuel + 1, l =>
      match l.rest with
      | [] => l.error msgInvalidString
      | c :: _ =>
          if c = symbol then .ok ([], l.advance)
          else if c = '\\' then
            let (w, l) := l.escapes
            (Lex.stringLoop symbol fuel l).map fun (s, l) => (w ++ s, l)
          else
            (Lex.stringLoop symbol fuel l.advance).map fun (s, l) => (c :: s, l)

/-- `string` (parse.py:153-183), the current character being the delimiter. -/
def Lex.string (symbol : Char) (l : Lex) : Except PyErr (Token × Lex) :=
  let start := l.pos
  let l := l.advance
  (l.stringLoop symbol (l.rest.length + 1)).map fun (s, l) =>
    ({ tt := .string, lexeme := .text (symbol :: s ++ [symbol]), line := l.line, col := start }, l)

/-- `format_str` (parse.py:221-224). -/
def Lex.formatStr (symbol : Char) (l : Lex) : Except PyErr (Token × Lex) :=
  (l.advance.string symbol).map fun (t, l) => ({ t with tt := .formatStr }, l)

/-- Letters, digits and underscore of identifiers (parse.py:187). -/
def isWordChar (py : PyCfg) (c : Char) : Bool := py.isAlnum c || c == '_'

/-- `identifier` (parse.py:185-197). -/
def Lex.identifier (py : PyCfg) (l : Lex) : Token × Lex :=
  let (word, l) := l.span (isWordChar py)
  let col : Int := l.pos - (word.length + 1)
  ({ tt := (keywordTable.lookup word).getD .identifier, lexeme := .text word, line := l.line,
     col := col }, l)

/-- `common_toks` (parse.py:199-219) with the error of `get_token` (parse.py:250-254) when no
token results; the current character is `c`. -/
def Lex.commonToks (c : Char) (l : Lex) : Except PyErr (Token × Lex) :=
  let single : Except PyErr (Token × Lex) :=
    match Token.fromChar [c] l.line l.pos with
    | some t => .ok (t, l.advance)
    | none => l.advance.invalidSymbol
  if isAmbiguous c then
    match Token.fromChar (c :: l.lookahead.toList) l.line l.pos with
    | some t => .ok (t, l.advance.advance)
    | none => single
  else single

/-- The jump over a comment or blanks at the start of `get_token` (parse.py:229-232). -/
def Lex.skip (py : PyCfg) (l : Lex) : Lex :=
  let l := if l.rest.head? = some '#' then l.comment else l
  match l.rest with
  | c :: _ => if c ≠ '\n' ∧ py.isSpace c then l.whitespace py else l
  | [] => l

/-- The rest of `get_token` (parse.py:233-254). -/
def Lex.token (py : PyCfg) (l : Lex) : Except PyErr (Token × Lex) :=
  match l.rest with
  | [] => .ok ({ tt := .lexEof, lexeme := .text [], line := l.line, col := l.pos }, l)
  | c :: cs =>
      if c = '\n' ∧ cs = [] then
        let l := l.advance
        .ok ({ tt := .lexEof, lexeme := .text [], line := l.line, col := (l.pos : Int) - 1 }, l)
      else if c = '\n' then .ok l.newline
      else if c = '\'' ∨ c = '"' then l.string c
      else if py.isAlpha c ∨ c = '_' then
        match l.lookahead with
        | some d =>
            if c = 'f' ∧ (d = '"' ∨ d = '\'') then l.formatStr d else .ok (l.identifier py)
        | none => .ok (l.identifier py)
      else if py.isDigit c then l.number py
      else l.commonToks c

/-- `get_token` (parse.py:226-254). -/
def Lex.getToken (py : PyCfg) (l : Lex) : Except PyErr (Token × Lex) := (l.skip py).token py

/-- Repeated `get_token` up to and including the `Lexer.EOF` token, at most `fuel` times. -/
def Lex.all (py : PyCfg) : Nat → Lex → Except PyErr (List Token)
  | 0, _ => .error .fuel
  | fuel + 1, l =>
      match l.getToken py with
      | .error e => .error e
      | .ok (t, l) => if t.tt = .lexEof then .ok [t] else (Lex.all py fuel l).map (t :: ·)

/-- All tokens of a source text: what a parser that always asks for the next token receives
(parse.py:270-302, 1346-1351). -/
def lexAll (py : PyCfg) (src : List Char) : Except PyErr (List Token) :=
  Lex.all py (src.length + 1) (Lex.init src)

/-- Python's behaviour on ASCII, and the facts about its Unicode classes used in statements:
letters and digits are alphanumeric, blanks are not, `int` accepts ASCII numerals of up to 4300
digits (`sys.int_info.default_max_str_digits`), `float` all ASCII decimal fractions. -/
structure PyCfg.Lawful (py : PyCfg) : Prop where
  alpha : ∀ c : Char, c.toNat < 128 → py.isAlpha c = c.isAlpha
  digit : ∀ c : Char, c.toNat < 128 → py.isDigit c = c.isDigit
  space : ∀ c : Char, c.toNat < 128 →
    py.isSpace c = (decide (9 ≤ c.toNat ∧ c.toNat ≤ 13) || decide (28 ≤ c.toNat ∧ c.toNat ≤ 32))
  alnum : ∀ c : Char, c.toNat < 128 → py.isAlnum c = c.isAlphanum
  alpha_alnum : ∀ c, py.isAlpha c = true → py.isAlnum c = true
  digit_alnum : ∀ c, py.isDigit c = true → py.isAlnum c = true
  alpha_digit : ∀ c, py.isAlpha c = true → py.isDigit c = false
  space_alnum : ∀ c, py.isSpace c = true → py.isAlnum c = false
  int : ∀ w : List Char, w ≠ [] → (∀ c ∈ w, c.isDigit = true) → w.length ≤ 4300 →
    py.parseInt w = some (Nat.ofDigitChars 10 w 0)
  real : ∀ a b : List Char, a ≠ [] → (∀ c ∈ a, c.isDigit = true) → b ≠ [] →
    (∀ c ∈ b, c.isDigit = true) → (py.parseReal (a ++ '.' :: b)).isSome = true

end Amanda
