{"id": "C01", "title": "Module images survive serialisation", "statement": "Whatever nested document (text, 64-bit integers, raw bytes, lists, sub-documents) the compiler serialises with bindump.dumps, the VM's loader reads back the very same document: same keys, same values, same list order.", "quantifier": "every document tree built from the supported value types with ASCII, NUL-free keys, of any nesting depth and size the serialiser accepts", "why_tests_cant": "The claim ranges over every document tree built from the supported value types with ASCII, NUL-free keys, of any nesting depth and size the serialiser accepts; any test suite samples finitely many of these.", "anchors": ["amanda/compiler/bindump.py: dumps, dump_value", "amanda/vm/src/binload.rs: unpack_bson_doc, unpack_bson_value, read_bson_key"]}
{"id": "C02", "title": "The serialiser rejects instead of corrupting", "statement": "bindump.dumps either raises or produces an image; it raises exactly when some integer lies outside the signed 64-bit range, some string/bytes/sub-document is 2^31 bytes or longer, or a value has an unsupported type (for example a Python bool). No value is silently truncated.", "quantifier": "every document, including ones with out-of-range or unsupported leaves at any depth", "why_tests_cant": "The claim ranges over every document, including ones with out-of-range or unsupported leaves at any depth; any test suite samples finitely many of these.", "anchors": ["amanda/compiler/bindump.py: dumps, bson_int32_len, into_bson_int64"]}
{"id": "C03", "title": "Images are self-delimiting", "statement": "Reading a serialised document consumes exactly the bytes that were written for it, whatever bytes follow, so nested modules, functions and records inside an image can never bleed into one another.", "quantifier": "every document and every byte string following it", "why_tests_cant": "The claim ranges over every document and every byte string following it; any test suite samples finitely many of these.", "anchors": ["amanda/vm/src/binload.rs: unpack_bson_value", "amanda/compiler/bindump.py: dumps"]}
{"id": "C04", "title": "Instruction encoding is lossless", "statement": "For every instruction whose operand fits its declared width, decoding the bytes the compiler writes gives back the same operation and the same operands, and a whole instruction sequence decodes back to exactly that sequence.", "quantifier": "every opcode, every operand in range, every instruction sequence of any length", "why_tests_cant": "The claim ranges over every opcode, every operand in range, every instruction sequence of any length; any test suite samples finitely many of these.", "anchors": ["amanda/compiler/codegen.py: ByteGen.write_op_bytes, format_u16_arg, format_u64_arg", "amanda/vm/src/vm.rs: get_byte, get_u16_arg, get_u64_arg"]}
{"id": "C05", "title": "Compiler and VM agree on the opcode table", "statement": "Every opcode number emitted by the compiler is recognised by the VM as the same operation with the same operand width; no two operations share a number; every byte that is not an opcode is refused.", "quantifier": "all 256 byte values and all 43 operations", "why_tests_cant": "A unit test compares individual opcodes; the agreement must hold for the whole table on both sides at once.", "anchors": ["amanda/compiler/codegen.py: OpCode, op_size", "amanda/vm/src/opcode.rs: OpCode::from", "amanda/vm/src/vm.rs: run"]}
{"id": "C06", "title": "Jumps land on instructions", "statement": "In the code generated for any program, every jump target (of se, enquanto, para, quebra/continua, function skips and iguala) is the address of the first byte of some instruction inside the code; execution can never land in the middle of an operand or beyond the end.", "quantifier": "every syntactically valid program (any nesting) that the generator accepts", "why_tests_cant": "The claim ranges over every syntactically valid program (any nesting) that the generator accepts; any test suite samples finitely many of these.", "anchors": ["amanda/compiler/codegen.py: new_label, patch_label_loc, append_op, gen_se, gen_enquanto, gen_para, gen_iguala_cases, gen_functiondecl"]}
{"id": "C07", "title": "Byte offsets are exact", "statement": "The offset the generator tracks while emitting equals the number of bytes written so far, so function entry points and jump addresses recorded during generation are the true positions in the image.", "quantifier": "every program the generator accepts", "why_tests_cant": "The claim ranges over every program the generator accepts; any test suite samples finitely many of these.", "anchors": ["amanda/compiler/codegen.py: append_op, op_size, compile"]}
{"id": "C08", "title": "Constants and names load what was written", "statement": "The index emitted for a constant or name always selects, in the table shipped in the image, exactly the constant or name that was requested, no matter what is added to the table before or afterwards; equal items share one entry.", "quantifier": "every sequence of table requests", "why_tests_cant": "The claim ranges over every sequence of table requests; any test suite samples finitely many of these.", "anchors": ["amanda/compiler/codegen.py: get_table_index, load_const, load_name"]}
{"id": "C09", "title": "Operand overflow is never silent", "statement": "A program whose constants, locals, arguments or elements exceed the width of the instruction operand is rejected by the compiler; an operand is never silently wrapped to a different one.", "quantifier": "every operand value", "why_tests_cant": "Wrap-around only appears with tens of thousands of locals or hundreds of elements.", "anchors": ["amanda/compiler/codegen.py: format_u16_arg, write_op_bytes, get_table_index, declare_local"]}
{"id": "C10", "title": "Integer arithmetic is exact or fails", "statement": "For integers a and b, a + b, a - b and a * b evaluate to the mathematically exact result when it fits in 64 bits and otherwise stop the program with the out-of-range error; a wrapped result is never produced.", "quantifier": "all pairs of 64-bit integers", "why_tests_cant": "2^128 operand pairs per operator.", "anchors": ["amanda/vm/src/ama_value.rs: binop, arith_ops!"]}
{"id": "C11", "title": "Integer division and remainder obey the division law", "statement": "For every nonzero divisor b where a // b is representable, a == (a // b) * b + a % b, |a % b| < |b|, the quotient rounds toward zero and the remainder has the sign of a; the single unrepresentable case (minimum integer by -1) is an error for both operators.", "quantifier": "all pairs of 64-bit integers with nonzero divisor", "why_tests_cant": "2^128 operand pairs, with one single exceptional pair.", "anchors": ["amanda/vm/src/ama_value.rs: binop"]}
{"id": "C12", "title": "A zero divisor always stops the program", "statement": "x / 0, x // 0 and x % 0 always end in the division-by-zero error for integers and reals; no other integer divisor triggers that error.", "quantifier": "all operand pairs, integer and real", "why_tests_cant": "The claim ranges over all operand pairs, integer and real; any test suite samples finitely many of these.", "anchors": ["amanda/vm/src/ama_value.rs: binop"]}
{"id": "C13", "title": "Comparisons form a consistent total order on integers and agree with equality", "statement": "For integers exactly one of a < b, a == b, a > b holds; <= and >= are the unions; != is the negation of == for every pair of comparable primitive values (int, real, bool, texto).", "quantifier": "all pairs of integers, all pairs of comparable values", "why_tests_cant": "The claim ranges over all pairs of integers, all pairs of comparable values; any test suite samples finitely many of these.", "anchors": ["amanda/vm/src/ama_value.rs: binop, comp_ops!, eq_ops!"]}
{"id": "C14", "title": "int to texto to int is the identity", "statement": "Converting any integer to texto and back to int gives the same integer; a texto converts to int exactly when it is an optionally signed nonempty decimal numeral in the 64-bit range, and otherwise the conversion stops with an error.", "quantifier": "all 64-bit integers, all strings", "why_tests_cant": "The claim ranges over all 64-bit integers, all strings; any test suite samples finitely many of these.", "anchors": ["amanda/vm/src/ama_value.rs: cast, Display for AmaValue"]}
{"id": "C15", "title": "Mixed int/real arithmetic behaves as if the int were converted first", "statement": "Whenever one operand of + - * / % or a comparison is real and the other int, the result is the same as converting the int to real first.", "quantifier": "all int/real pairs and all these operators", "why_tests_cant": "The claim ranges over all int/real pairs and all these operators; any test suite samples finitely many of these.", "anchors": ["amanda/vm/src/ama_value.rs: binop, take_float", "amanda/compiler/codegen.py: gen_auto_cast"]}
{"id": "C16", "title": "The VM value stack is a last-in-first-out stack", "statement": "Any interleaving of pushes and pops on the VM's value stack, whatever garbage a returned call left above the stack pointer, returns the values in LIFO order and leaves the values below untouched.", "quantifier": "every sequence of stack operations from every reachable stack state", "why_tests_cant": "The claim ranges over every sequence of stack operations from every reachable stack state; any test suite samples finitely many of these.", "anchors": ["amanda/vm/src/vm.rs: op_push, op_pop, reserve_stack_space"]}
{"id": "C17", "title": "Calls give the caller its stack back", "statement": "After a call returns, the caller sees exactly the operands and locals it had before pushing the arguments, plus the single returned value; nothing the callee did to its own locals or temporaries is visible.", "quantifier": "every function body and every stack content at the call", "why_tests_cant": "The claim ranges over every function body and every stack content at the call; any test suite samples finitely many of these.", "anchors": ["amanda/vm/src/vm.rs: run (CallFunction, Return), reserve_stack_space"]}
{"id": "C18", "title": "Recursion is bounded and reported", "statement": "No execution ever has more than 1000 active frames; the call that would exceed the limit stops the program with the recursion-limit error and nothing else.", "quantifier": "every execution of every program image", "why_tests_cant": "The claim ranges over every execution of every program image; any test suite samples finitely many of these.", "anchors": ["amanda/vm/src/vm.rs: FrameStack::push, run"]}
{"id": "C19", "title": "Vector accesses are bounds-checked", "statement": "Reading or writing v[i] succeeds exactly when 0 <= i < tam(v), reads the element last stored there, and otherwise stops with an index error without modifying anything; a write changes only that element of that vector.", "quantifier": "all vectors, indices, values and heaps", "why_tests_cant": "The claim ranges over all vectors, indices, values and heaps; any test suite samples finitely many of these.", "anchors": ["amanda/vm/src/vm.rs: run (OpIndexGet, OpIndexSet)", "amanda/vm/src/ama_value.rs: vec_index_check"]}
{"id": "C20", "title": "vec(...) creates independent storage", "statement": "A matrix created with vec(tipo, d1, ..., dn) has the requested shape, and assigning to one cell changes that cell only.", "quantifier": "all dimension lists and all cells", "why_tests_cant": "Aliasing shows up only with three or more dimensions and only after a write.", "anchors": ["amanda/vm/src/modules/builtins/embutidos.rs: build_vec, vec"]}
{"id": "C21", "title": "anexa, remova and tam behave like list operations", "statement": "After any sequence of anexa/remova/assignments the vector's contents equal the same sequence applied to a mathematical list; remova returns the removed element and fails exactly on indices outside the vector; every other vector is unaffected.", "quantifier": "every operation sequence on every heap", "why_tests_cant": "The claim ranges over every operation sequence on every heap; any test suite samples finitely many of these.", "anchors": ["amanda/vm/src/modules/builtins/embutidos.rs: anexa, remova, tam"]}
{"id": "C22", "title": "Record fields are independent cells", "statement": "A freshly built record returns for every field the value it was initialised with; after obj.f = v, obj.f reads v, every other field and every other object is unchanged, and every alias of obj sees the change.", "quantifier": "all records, field names, values and heaps", "why_tests_cant": "The claim ranges over all records, field names, values and heaps; any test suite samples finitely many of these.", "anchors": ["amanda/vm/src/values/registo.rs: RegObj", "amanda/vm/src/vm.rs: run (BuildObj, GetProp, SetProp)"]}
{"id": "C23", "title": "Option access", "statement": "x.valor yields the contained value when x is not nulo and stops with the null-reference error when it is; x.valor_ou(d) yields x when not nulo and d otherwise; x == nulo is true exactly for nulo.", "quantifier": "all values and defaults", "why_tests_cant": "The claim ranges over all values and defaults; any test suite samples finitely many of these.", "anchors": ["amanda/vm/src/vm.rs: run (Unwrap, IsNull)", "amanda/compiler/codegen.py: gen_unwrap, gen_binop"]}
{"id": "C24", "title": "f-strings show exactly their text and their values", "statement": "A format string evaluates to the concatenation, in order, of its literal pieces verbatim and the displayed form of each embedded value.", "quantifier": "every list of literal pieces and values", "why_tests_cant": "Only unusual literal pieces (numerals with leading zeros, quotes, accents) are affected.", "anchors": ["amanda/compiler/parse.py: Parser.parse_format_str", "amanda/compiler/codegen.py: gen_fmtstr", "amanda/vm/src/binload.rs: Const::from_str", "amanda/vm/src/vm.rs: BuildStr"]}
{"id": "C25", "title": "Runtime errors name a line that produced the failing instruction", "statement": "The line reported for a failing instruction is the source line that instruction was generated for.", "quantifier": "every program and every failing instruction", "why_tests_cant": "The claim ranges over every program and every failing instruction; any test suite samples finitely many of these.", "anchors": ["amanda/compiler/codegen.py: append_op, compile (src_map)", "amanda/vm/src/vm.rs: offset_to_line, panic_and_throw"]}
{"id": "C26", "title": "Lexing always terminates and always reaches EOF", "statement": "On every source text the lexer either reports a lexical error or delivers a finite token sequence ending in EOF; every token consumes at least one character and no character is skipped except whitespace and comments.", "quantifier": "every source text", "why_tests_cant": "The claim ranges over every source text; any test suite samples finitely many of these.", "anchors": ["amanda/compiler/parse.py: Lexer.get_token, whitespace, comment, number, identifier, string, common_toks"]}
{"id": "C27", "title": "Tokens print and lex back", "statement": "Writing any sequence of identifiers, keywords, integer numerals, quoted strings and symbols separated by blanks and lexing the text gives back the same sequence.", "quantifier": "every token sequence of any length", "why_tests_cant": "The claim ranges over every token sequence of any length; any test suite samples finitely many of these.", "anchors": ["amanda/compiler/parse.py: Lexer", "amanda/compiler/tokens.py"]}
{"id": "C28", "title": "String literals denote their text", "statement": "A quoted literal without backslashes denotes exactly the characters between its quotes, and the escapes \\n, \\\" and \\' denote newline and the quote, all the way from source to the value the VM loads.", "quantifier": "every string content", "why_tests_cant": "Failures need particular combinations of an escape followed by a quote two characters later.", "anchors": ["amanda/compiler/parse.py: Lexer.string, escape_seq", "amanda/vm/src/binload.rs: Const::from_str"]}
{"id": "C29", "title": "Token line numbers are right", "statement": "Every token carries the 1-based number of the source line it starts on, and this number never exceeds the number of lines in the file, so error reports can always show the offending line.", "quantifier": "every source text", "why_tests_cant": "The claim ranges over every source text; any test suite samples finitely many of these.", "anchors": ["amanda/compiler/parse.py: Lexer.advance, newline, get_token"]}
{"id": "C30", "title": "Identifiers and keywords are split by maximal munch", "statement": "The longest run of letters, digits and underscores starting with a letter or underscore forms one token; it is a keyword token exactly when the whole word is a keyword; two-character operators are never split.", "quantifier": "every source text", "why_tests_cant": "The claim ranges over every source text; any test suite samples finitely many of these.", "anchors": ["amanda/compiler/parse.py: Lexer.identifier, get_token", "amanda/compiler/tokens.py: KEYWORDS"]}
{"id": "C31", "title": "Operator precedence and associativity", "statement": "Parsing the fully parenthesis-minimal text of any expression tree gives back that tree: * / // % e bind tighter than + - ou, those tighter than comparisons, those tighter than == !=; unary operators bind tighter than binary ones; all binary operators associate to the left.", "quantifier": "every expression tree of any depth", "why_tests_cant": "The claim ranges over every expression tree of any depth; any test suite samples finitely many of these.", "anchors": ["amanda/compiler/parse.py: Parser.equality, comparison, addition, term, unary, call, primary"]}
{"id": "C32", "title": "Parsing always terminates", "statement": "On every token sequence the parser either returns a tree or reports a syntax error after reading finitely many tokens; every loop in the parser consumes at least one token per round.", "quantifier": "every token sequence", "why_tests_cant": "The claim ranges over every token sequence; any test suite samples finitely many of these.", "anchors": ["amanda/compiler/parse.py: Parser"]}
{"id": "C33", "title": "Compound assignment means what it says", "statement": "x op= e has the same effect as x = x op e, for variables, vector elements and record fields.", "quantifier": "every target, operator and right-hand side", "why_tests_cant": "The claim ranges over every target, operator and right-hand side; any test suite samples finitely many of these.", "anchors": ["amanda/compiler/parse.py: Parser.compound_assignment"]}
{"id": "C34", "title": "Assignability is coherent", "statement": "Type equality is an equivalence relation; a value may be used where type T is expected exactly when its type is T, it is an int where a real is expected, any value where indef is expected, or nulo or something usable as T where the optional T? is expected; promotion never goes in both directions between different types.", "quantifier": "all types, including arbitrarily nested vector and optional types", "why_tests_cant": "The claim ranges over all types, including arbitrarily nested vector and optional types; any test suite samples finitely many of these.", "anchors": ["amanda/compiler/types/core.py: Primitive.promotion_to, Vector, ConstructedTy.promotion_from, __eq__", "amanda/compiler/check/core.py: types_match"]}
{"id": "C35", "title": "Accepted operators never crash the VM", "statement": "Whenever the checker accepts an operator for operand types, executing it on any values of those types yields a value of the announced result type or one of the documented runtime errors, never a VM crash.", "quantifier": "all operator/type combinations and all values of those types", "why_tests_cant": "The claim ranges over all operator/type combinations and all values of those types; any test suite samples finitely many of these.", "anchors": ["amanda/compiler/ops.py: primitive_binop", "amanda/compiler/types/core.py: binop, unaryop", "amanda/vm/src/ama_value.rs: binop"]}
{"id": "C36", "title": "Accepted conversions never crash the VM", "statement": "Whenever the checker accepts e :> T, executing the conversion on any value of e's type yields a value of type T or the documented conversion error, never a VM crash.", "quantifier": "all accepted type pairs and all values", "why_tests_cant": "The claim ranges over all accepted type pairs and all values; any test suite samples finitely many of these.", "anchors": ["amanda/compiler/types/core.py: cast_to", "amanda/compiler/codegen.py: gen_converta", "amanda/vm/src/ama_value.rs: cast, check_cast"]}
{"id": "C37", "title": "Functions with a result always return one", "statement": "If the checker accepts a function that declares a result type, every terminating execution of its body ends in a retorna with a value; it never falls off the end.", "quantifier": "every function body and every execution", "why_tests_cant": "The claim ranges over every function body and every execution; any test suite samples finitely many of these.", "anchors": ["amanda/compiler/check/core.py: has_return, has_return_block, has_return_se, has_return_enquanto"]}
{"id": "C38", "title": "quebra and continua act on the innermost loop", "statement": "quebra leaves and continua restarts exactly the innermost enclosing loop.", "quantifier": "every nesting of enquanto and para loops", "why_tests_cant": "The claim ranges over every nesting of enquanto and para loops; any test suite samples finitely many of these.", "anchors": ["amanda/compiler/codegen.py: gen_enquanto, gen_para, gen_loopctlstmt", "amanda/compiler/check/core.py: visit_enquanto, visit_para, visit_loopctlstmt"]}
{"id": "C39", "title": "Names resolve to the innermost declaration", "statement": "A name refers to the declaration in the nearest enclosing block that declares it; redeclaring in the same block is rejected; declaring in an inner block never changes what the name means outside.", "quantifier": "every nesting of blocks and every sequence of declarations", "why_tests_cant": "The claim ranges over every nesting of blocks and every sequence of declarations; any test suite samples finitely many of these.", "anchors": ["amanda/compiler/symbols/core.py: Scope", "amanda/compiler/check/core.py: define_symbol"]}
{"id": "C40", "title": "Simultaneously live locals never share storage", "statement": "Two different local variables that are visible at the same time are stored in different slots.", "quantifier": "every nesting depth and every number of declarations per block", "why_tests_cant": "The collision needs more than ten variables in one block together with more than ten nested blocks.", "anchors": ["amanda/compiler/check/core.py: define_symbol", "amanda/compiler/symbols/core.py: new_unique_var", "amanda/compiler/codegen.py: declare_local, set_variable"]}
{"id": "C41", "title": "iguala takes the first matching arm", "statement": "Evaluating the compiled decision tree on a value selects the first arm, in source order, whose pattern matches the value and binds the pattern's names to the corresponding parts of the value.", "quantifier": "every union type, every list of arms and every value", "why_tests_cant": "The claim ranges over every union type, every list of arms and every value; any test suite samples finitely many of these.", "anchors": ["amanda/compiler/check/exhaustiveness.py: IgualaCompiler"]}
{"id": "C42", "title": "Accepted iguala expressions are exhaustive", "statement": "If the checker accepts an iguala, every value of the target type is matched by some arm.", "quantifier": "every union or primitive target type, every list of arms and every value", "why_tests_cant": "The claim ranges over every union or primitive target type, every list of arms and every value; any test suite samples finitely many of these.", "anchors": ["amanda/compiler/check/exhaustiveness.py: IgualaCompiler.compile, _compile_rows"]}
{"id": "C43", "title": "Reported missing patterns are real", "statement": "If the checker rejects an iguala as non-exhaustive, there is a value no arm matches, and every pattern it lists as missing describes only unmatched values.", "quantifier": "every rejected list of arms", "why_tests_cant": "The claim ranges over every rejected list of arms; any test suite samples finitely many of these.", "anchors": ["amanda/compiler/check/exhaustiveness.py: Match.missing_patterns"]}
{"id": "C44", "title": "Generated code implements the decision tree", "statement": "Running the code generated for an iguala leaves exactly one value, the value of the arm chosen by the decision tree, on top of the stack the program had before.", "quantifier": "every decision tree and stack", "why_tests_cant": "The claim ranges over every decision tree and stack; any test suite samples finitely many of these.", "anchors": ["amanda/compiler/codegen.py: gen_iguala, gen_iguala_from_ir, gen_iguala_cases, gen_iguala_case_bindings"]}
{"id": "C45", "title": "escolha is first-match selection", "statement": "An escolha executes the block of the first caso whose value equals the selector, or the default block if none does, and nothing else.", "quantifier": "every list of cases, selector value and block effects", "why_tests_cant": "The claim ranges over every list of cases, selector value and block effects; any test suite samples finitely many of these.", "anchors": ["amanda/compiler/transform.py: transform_escolha"]}
{"id": "C46", "title": "Expressions compile correctly", "statement": "Running the code generated for an expression pushes exactly the value the expression denotes, leaves the rest of the stack and the locals unchanged, and stops with the same runtime error when the expression's evaluation fails.", "quantifier": "every expression of the covered fragment, every environment, every stack", "why_tests_cant": "The claim ranges over every expression of the covered fragment, every environment, every stack; any test suite samples finitely many of these.", "anchors": ["amanda/compiler/codegen.py: gen_constant, gen_variable, gen_unaryop, gen_binop, gen_converta, gen_fmtstr, gen_listliteral, gen_indexget, gen_get, gen_unwrap", "amanda/vm/src/vm.rs: run"]}
{"id": "C47", "title": "Statements and loops compile correctly", "statement": "Running the code generated for a sequence of declarations, assignments, mostra, se/senaose/senao, enquanto and para statements produces the same output, the same final variables and the same error as the source-level meaning of those statements.", "quantifier": "every statement sequence of the covered fragment and every initial state, including any number of loop iterations", "why_tests_cant": "The claim ranges over every statement sequence of the covered fragment and every initial state, including any number of loop iterations; any test suite samples finitely many of these.", "anchors": ["amanda/compiler/codegen.py: gen_vardecl, gen_assign, gen_mostra, gen_se, gen_enquanto, gen_para", "amanda/vm/src/vm.rs: run"]}
{"id": "C48", "title": "Function calls compile correctly", "statement": "Calling a function binds parameters to arguments in order, gives it fresh locals, runs its body and delivers its result to the caller, whose locals and pending operands are unchanged, to any recursion depth within the limit.", "quantifier": "every set of mutually recursive functions of the covered fragment, all arguments", "why_tests_cant": "The claim ranges over every set of mutually recursive functions of the covered fragment, all arguments; any test suite samples finitely many of these.", "anchors": ["amanda/compiler/codegen.py: gen_functiondecl, gen_call, gen_retorna", "amanda/vm/src/vm.rs: run (CallFunction, Return)"]}
{"id": "C49", "title": "para iterates over the half-open range", "statement": "para i de a ate b runs its body exactly max(0, b - a) times with i = a, a+1, ..., b-1; with inc s > 0 it runs for a, a+s, ... below b.", "quantifier": "all bounds, steps and bodies that do not assign the control variable", "why_tests_cant": "The claim ranges over all bounds, steps and bodies that do not assign the control variable; any test suite samples finitely many of these.", "anchors": ["amanda/compiler/codegen.py: gen_para", "amanda/compiler/parse.py: Parser.for_expression, range_expression"]}
{"id": "C50", "title": "Import graphs are handled once and without cycles", "statement": "Loading the imports of a program terminates on every finite set of files; each file is analysed at most once; loading fails with the cyclic-import error exactly when the files reachable from the program import each other in a cycle.", "quantifier": "every finite import graph", "why_tests_cant": "The claim ranges over every finite import graph; any test suite samples finitely many of these.", "anchors": ["amanda/compiler/check/core.py: load_module, visit_usa"]}
{"id": "C51", "title": "Imported modules are ready before they are used", "statement": "When a module's top-level code runs, the top-level code of every module it imports has already run.", "quantifier": "every acyclic import graph", "why_tests_cant": "The order only matters for chains of imports with top-level effects.", "anchors": ["amanda/compiler/check/core.py: load_module", "amanda/compiler/codegen.py: compile", "amanda/vm/src/vm.rs: run"]}
{"id": "C52", "title": "The exit status tells success from failure", "statement": "Running a file ends with status 0 exactly when the program was accepted and ran to completion.", "quantifier": "every program", "why_tests_cant": "The claim ranges over every program; any test suite samples finitely many of these.", "anchors": ["amanda/__main__.py: run_file", "amanda/compiler/error.py: throw_error", "amanda/vm/src/lib.rs: run_module"]}
{"id": "C53", "title": "leia returns the typed line", "statement": "leia shows its prompt, consumes exactly one line of standard input and returns that line without its line terminator; leia_int returns the integer typed on that line.", "quantifier": "every prompt and every input line", "why_tests_cant": "No test feeds standard input, and the result depends on the build profile; the claim is about every line a user can type.", "anchors": ["amanda/vm/src/modules/builtins/embutidos.rs:28-71"]}
{"id": "C54", "title": "A syntax error names a line of the file", "statement": "Every syntax error, found by the lexer or the parser, carries the number of a line that exists in the text, so that the report can show that line and its assertion never fails.", "quantifier": "every source text", "why_tests_cant": "The claim ranges over every malformed text, including errors at the end of the file, after a final line feed and inside format strings; tests sample a few.", "anchors": ["amanda/compiler/parse.py: Lexer.newline, error, Parser.consume, error, parse_fstr_expr", "amanda/compiler/error.py: throw_error"]}
{"id": "C55", "title": "Accepted programs never crash the machine", "statement": "A program that the checker accepts never makes the virtual machine panic or hit an operation that has no meaning for its operands; it runs, reports a run-time error, or does not end.", "quantifier": "every accepted program, every input, any number of steps", "why_tests_cant": "Type safety is a claim about all accepted programs and all runs; tests try a few programs and only on one input each.", "anchors": ["amanda/compiler/check/core.py: Analyzer", "amanda/compiler/transform.py", "amanda/vm/src/vm.rs: run", "amanda/vm/src/ama_value.rs: binop, cast"]}
{"id": "C56", "title": "Variables hold values of their declared types", "statement": "Whenever an accepted program ends, every variable of the program that was declared with a type holds a value of that type.", "quantifier": "every accepted program, every input, every declared variable", "why_tests_cant": "The claim is about every declaration of every accepted program, after any run.", "anchors": ["amanda/compiler/check/core.py: visit_vardecl, visit_assign, types_match", "amanda/compiler/codegen.py: gen_vardecl, gen_assign, gen_promotion"]}
{"id": "C57", "title": "The checker reports errors", "statement": "Whatever program is given, the front end either accepts it or reports an error with a line; it does not end with an uncaught Python exception.", "quantifier": "every syntactically correct program", "why_tests_cant": "Uncaught exceptions show only on the combinations of constructs that nobody wrote a test for.", "anchors": ["amanda/compiler/check/core.py: Analyzer", "amanda/compiler/transform.py", "amanda/compiler/codegen.py", "amanda/__main__.py: run_file"]}
{"id": "C59", "title": "A method call runs the method of the target's type", "statement": "x.m(..) runs the method m that was declared for the type of x, whatever methods other types have.", "quantifier": "every program, every type with methods, every call", "why_tests_cant": "Tests declare method names once; the claim is about all sets of declarations.", "anchors": ["amanda/compiler/types/core.py: define_method, get_property", "amanda/compiler/transform.py:117-162", "amanda/compiler/codegen.py: gen_call, load_variable"]}
{"id": "C60", "title": "Names imported by usa are available", "statement": "After usa \"p\" every name declared in module p can be used; after usa \"p\" => [a, b] the names a and b can; they stand for what they stand for in p. Earlier imports change nothing about that.", "quantifier": "every module, every list of names, every sequence of imports", "why_tests_cant": "Tests import each module once and in one way.", "anchors": ["amanda/compiler/check/core.py: load_module, define_module_alias, define_module_items, visit_usa"]}
{"id": "C61", "title": "Elements of vectors can be assigned to", "statement": "v[i] = e is accepted for every vector v, int i and e of v's element type, and changes that element.", "quantifier": "every element type", "why_tests_cant": "The claim is about all element types, including nested and user-defined ones.", "anchors": ["amanda/compiler/check/core.py: visit_indexset", "amanda/compiler/types/core.py: supports_index_set", "amanda/compiler/codegen.py: gen_indexset"]}
{"id": "C58", "title": "Compiled programs run forever exactly when the source does", "statement": "For every program in the fragment of C47 whose meaning is defined: if the source program never ends, the compiled program is still running after any number of instructions; if the compiled program stops, the source program ends, with status 0 and the same output when it runs to its end and with status 1 when it fails. The virtual machine never panics on it.", "quantifier": "every program in the fragment of C47, every input, every number of instructions", "why_tests_cant": "A test can only wait for a bounded time; it cannot tell a program that never ends from a slow one, nor rule out that the machine stops a program that should go on.", "anchors": ["amanda/compiler/codegen.py: gen_enquanto, gen_para, gen_call", "amanda/vm/src/vm.rs: run", "amanda/vm/src/lib.rs: run_module"]}
{"id": "C62", "title": "Parsed trees follow the grammar", "statement": "In every tree the parser makes, the targets of assignments are variables, fields or elements of vectors; assignments are statements or the right side of other assignments; named arguments stand in calls only; operators, literals and names are tokens of that kind; a declaration gives a value to the variable it declares; fields of a registo are declarations; only native functions have no body; usa comes before everything else.", "quantifier": "every source text", "why_tests_cant": "The claim is about the shape of all trees, whatever the text.", "anchors": ["amanda/compiler/parse.py: Parser", "amanda/compiler/ast.py: is_assignable"]}
{"id": "C63", "title": "From the file to the end of the process", "statement": "For every file with an accepted program, the process ends with status 0 and the program's output if the program runs to its end, with status 1, its output and a report ending with its error if it fails, and runs forever if the program does; it is never aborted.", "quantifier": "every file, every input", "why_tests_cant": "The claim ranges over all programs and joins parser, checker, code generator, image format and virtual machine.", "anchors": ["amanda/__main__.py: run_file", "amanda/compiler/check/core.py: Analyzer", "amanda/compiler/codegen.py: ByteGen", "amanda/vm/src/lib.rs: run_module", "amanda/vm/src/vm.rs: run"]}
{"id": "C64", "title": "Errors name a line of the file they name", "statement": "Every error that the parser or the checker gives to the user names a file of the program and a line which that file has, so the report can show the line.", "quantifier": "every text, every program of any number of files", "why_tests_cant": "The claim ranges over every error of every visit of the parser and the checker, and over all ways files import each other.", "anchors": ["amanda/compiler/error.py: throw_error", "amanda/compiler/check/core.py: error, error_with_loc, load_module, define_module_alias", "amanda/compiler/parse.py: Parser", "amanda/compiler/ast.py: ASTNode"]}
{"id": "C65", "title": "The checker scopes names lexically", "statement": "A statement leaves the checker in the scope, nesting, function, loop and type context where it was, and changes the meaning of no name in any scope other than the name it declares; a declaration is accepted only if its scope does not define the name yet, and then the scope defines it. At the end of every program, looking up a name finds the symbol of the innermost scope that defines it.", "quantifier": "every statement and expression of the language, every state of the checker, every program of any number of files", "why_tests_cant": "The claim is about what is not visible after arbitrarily nested blocks, loops, arms, records, methods and imports.", "anchors": ["amanda/compiler/check/core.py: enter_scope, leave_scope, visit_block, visit_registo, make_func_symbol, define_symbol, validate_decl_in_scope", "amanda/compiler/check/iguala.py: check_iguala", "amanda/compiler/check/uniao.py: check_uniao", "amanda/compiler/symbols/core.py: Scope"]}
{"id": "C66", "title": "Statements of accepted programs stand where they mean something", "statement": "In a program that the checker accepts, quebra and continua stand only in the body of an enquanto of the same function, retorna and alvo only in a function or method, produz only as the last statement of the block of an arm of an iguala, and functions are declared only between the statements of a module; at any depth and in every module.", "quantifier": "every program of the whole language, of any number of files", "why_tests_cant": "The checker keeps the loop, the function and the nesting in fields that every visit must restore; a field left changed after one statement shows only in later statements, in arbitrarily nested combinations.", "anchors": ["amanda/compiler/check/core.py: visit_loopctlstmt, visit_enquanto, visit_para, visit_retorna, visit_produz, visit_yieldblock, visit_functiondecl, visit_alvo, validate_decl_in_scope", "amanda/compiler/check/iguala.py: check_iguala", "amanda/compiler/transform.py"]}
{"id": "C67", "title": "Texts are read by their characters", "statement": "tam of a text is the number of its characters; indexing a text gives the character at any index from 0 to tam-1 and stops with an index error, without any effect, on every other integer; the characters read from the first to the last, one after another, are the text and none is empty; txt_contem says exactly whether one text occurs in the other.", "quantifier": "every text, every integer index, every machine state, every way of cutting texts into characters that loses nothing", "why_tests_cant": "Texts and indices are unbounded, and what one character is depends on Unicode tables; tests sample a few texts of one encoding.", "anchors": ["amanda/vm/src/vm.rs: OpIndexGet", "amanda/vm/src/modules/builtins/embutidos.rs: tam, txt_contem"]}
{"id": "C68", "title": "What was written stays written", "statement": "Observing a running program at two times: what it had written is the beginning of what it has written later; it takes lines of the input in order and puts none back; every cell of storage is still there with its kind, records keep their type and fields, and the values inside a variant never change; a run that ended stays ended. This holds whether instructions succeed, raise errors or panic.", "quantifier": "every program image, also ones no compiler makes, every input and every two numbers of instructions", "why_tests_cant": "A test sees the final output of a few compiled programs; the claim is about every intermediate state of every image, including runs that fail in the middle of an instruction.", "anchors": ["amanda/vm/src/vm.rs: run", "amanda/vm/src/modules/builtins/embutidos.rs", "amanda/vm/src/modules/builtins/mat.rs"]}
{"id": "C69", "title": "Builds with and without debug assertions behave alike", "statement": "A program that does not panic on the virtual machine built with debug assertions does exactly the same on the machine built without: the same output, the same errors, the same storage and the same outcome, after every number of instructions.", "quantifier": "every program image, every input and every number of instructions", "why_tests_cant": "The tests run one build; the claim compares two machines on every image and every intermediate state.", "anchors": ["amanda/vm/src/vm.rs: run", "amanda/vm/src/modules/builtins/embutidos.rs: leia", "setup.py"]}
