# A Lean 4 model of Minxrod/sbc

`/repo` is a C re-implementation of Petit Computer / SmileBASIC (`source/`).  The model in
`lean/Verif/` transcribes its pure and state-machine core, function by function, into total
computable Lean functions.  The code is never compiled or run; the tie between code and model is
the per-definition citation (`file: lines`).

## Conventions

* `fixp` (int32) values are Lean `Int`s constrained by `I32 x : -2^31 ≤ x ≤ 2^31-1`.  Signed overflow,
  out-of-bounds access, NULL dereference, failing `assert`, division by zero in C, `abort()` are the
  distinct outcome `Out.ub`, never silently totalised.  Unsigned wrap-around is written as `% 2^32`.
* BASIC-level errors (`p->exec.error = ERR_…`) are `Out.err e`.
* Memory pools are functions/lists indexed by slot; a pointer is an index.
* Loops become structural recursion on the loop's own variant, or carry fuel that a theorem proves
  sufficient.
* Files `*Spec.lean`/sections named `Spec` contain the independent specification; `Props/*.lean`
  contain the property theorems (`C07_…`), each with a non-vacuity `example` and, where the claim of
  the English property is false of the code, a refutation theorem (`…_violated`) with a concrete
  witness plus a `…_partial` theorem stating what does hold.

## Plan per property

| id | modelled code | method |
|----|---------------|--------|
| C01,C02 | `vars.c` probing, `name_hash`, `namecmp`, `get_var` | refinement of the probe table to a finite map; triangular probing mod 2^k is a permutation (number theory) |
| C03 | `label.c` | same probe library |
| C04,C05,C06 | `arrays.c`, `get_arr_entry_via_ptr`, `get_new_arr_var` | allocator invariant (disjoint intervals); negations for 1-D/2-index and int overflow |
| C07,C08,C09 | `operators.c` numeric | integer arithmetic with `omega`/division lemmas |
| C10,C11,C12 | `fixp_to_char`, `str_to_number` | digit-loop invariants, numeral semantics spec |
| C13 | `func_hex`, `func_val` | positional notation induction |
| C14 | `to_wide`, `to_char` | whole 256-entry table by kernel evaluation, lifted to all strings |
| C15 | `str_lex`, `str_comp` | induction over characters against `List` lexicographic order |
| C16–C19 | `strfuncs.c`, `str_concat` | list specifications `take/drop/++`; negations for 16-bit truncation and SUBST$ overflow |
| C20 | string pool ref-counts | invariant over operation histories; negation for READ |
| C21,C22 | `variables.c` sort | fuel-free quicksort model, permutation invariant; sortedness refuted by witness |
| C23 | `compress.c` | bit-stream abstraction, lock-step cache invariant |
| C24 | `input.c` ring buffer | refinement to a list queue |
| C25,C26 | `console.c` | cursor invariant; infinite-tape refinement of scrolling |
| C27,C28 | `background.c` | index bijection, frame theorems, negation for BGCOPY |
| C29,C30 | `graphics.c` | index bijection, clipping, XOR fold |
| C31,C32,C33,C48 | `flow.c` | stack machine refinement; loop semantics by induction; scanning of nested blocks |
| C34,C35 | `tok_code`, `bc_scan` | encode/decode round trip, boundary induction |
| C36 | `tok_prio`, `tok_eval` | shunting-yard correctness over expression trees |
| C37 | `data.c`, `tok_data` | cursor refinement to list of items |
| C38 | `sbc_memory.c` | interval arithmetic, negation at upper edge |
| C39,C40,C41,C45 | `resources.c` | nibble packing round trips; name parser |
| C42 | `input.c` buttons | frame-history refinement |
| C43,C44,C49 | `background.c`, `sprites.c` | interpolation arithmetic, first-match search, negation for early `break` |
| C46,C47 | `cmd_swap`, `cmd_dtread/tmread` | direct |
| C50 | `check_cmd` | matcher vs. alternatives |
| C51 | `mathptc.c` integer functions | case analysis on the 32-bit range |
| C52 | `grp_line` | accumulated 32.32 slope error bound; list of dots is a `Straight` function graph |
| C53,C55 | `cmd_gcopy`, `cmd_gputchr` | fold over the dot list in loop order; no dot read after it was written |
| C54 | `cmd_gpaint` | invariant: every unpainted neighbour of a painted dot is covered by a stack entry; variant: dots still inside |
| C56–C59 | `sprites.c` | frame-step induction; animation counters as div/mod of the frame number; refutations for SPSCALE/SPANGLE timing and unchecked arguments |
| C60 | `tok_code` number literals, `str_to_number` | range analysis of the accumulating loop; refutation by wrap-around |
| C61 | DIM in `runner.c`, `vars.c` | state comparison of the machine before and after the failing DIM |
| C62 | `runner.c`, `flow.c`, `bytecode.c` on whole compiled programs | invariant "the index is on an instruction boundary" for every step of every run |
| C63,C71–C74 | `sysvars.c`, `ptc_sysvars`, `syschk_*`, `VALIDATE` emission | cell-by-cell model of the 33 variables, effect of a line as a function, digit arithmetic |
| C64 | `func_ptr` | hexadecimal digits |
| C65–C69 | `resources.c` LOAD, SAVE, APPEND, EXEC, packages over an abstract file system | frame theorems on the file system; refutations by concrete files |
| C70 | implicit arrays | history invariant over DIM and accesses |
| C75,C76 | `cmd_visible`, `cmd_wait`, `cmd_vsync` | bit masks; loop over frame numbers |
| C77–C79 | `tokens.c` lexer and main loop, `tok_convert` | lexing of the text of a line returns its words; per-line effect, composed by induction over lines |
| C80–C84 | `display_pc.c`, `tilemap.c`, `sprite.c`, `graphic.c`, `bgsp.frag` | textures as functions, quads with exact interpolation, pixel-wise layers; history invariant "texture = memory or marked" |
| C85, C86 | the whole chain `tokens.c` (text → tokens → code) and `runner.c` | `Spec/Source.lean` gives the meaning of programs as written (no tokens, code or machine); `Proof/Source*.lean`: each line's tokens by C77, its code by induction over statements, lines joined by C79, then a forward simulation (each source step is matched by machine steps); ends/forever by determinism. FOR, NEXT, ON, DATA, READ, RESTORE and DIM (of one or several arrays) are included, arrays of numbers and strings with one or two dimensions (their elements in expressions and as targets of assignments and of READ; the variables area of the machine holds them as in `vars.c` and `arrays.c`, and the relation between store and machine says which words belong to which array and that they do not overlap), and in expressions strings, string variables, operators on strings, functions of up to three arguments and the read-only system variables; what functions and system variables give is described by a `World` (arbitrary, may depend on the state of the rest of the system and may be an error), and `Performs` says that the surroundings of the interpreter behave like that. Strings are lists of 8-bit characters; `Performs` demands that the operators on strings and their assignment act on these lists (C105 shows it for the models of `operators.c` and `strfuncs.c`), so the string pool and its exhaustion are outside these theorems. The theorems assume that the code fits in the buffer of the program (524288 bytes), because the address of a loop has 24 bits. No meaning is given (the theorems say nothing) when an array is used that no DIM has made, when the number of subscripts is not that of the dimensions, when a dimension is negative or (the second) zero or the second subscript is -1, when there is no room for an array (the room at the start is a parameter of the theorems), when the NEXT of a loop that does not run at all is to be looked for across FOR or NEXT within an IF, or from a branch of an IF beyond its end, when NEXT goes on with a loop other than the last one begun or called from (it may end such a loop), and when limit or step fail to evaluate at NEXT |
| C87 | `tok_eval`, `cmd_if` | refuted by evaluation in the kernel |
| C88 | `tok_code` (variable numbers), variable instructions of `runner.c` | one step of the machine at the two instructions compared, in every later state of the table |
| C89 | `Model/Sprites.lean` | per command: the one record changed, all others untouched; `…_violated` for SPREAD, SPCHK, SPHOME |
| C90 | `Model/SysVars.lean` with the names of `Spec/Lexer.lean` | table of names against the table of handlers |
| C91 | `flow.c` cmd_for, cmd_next, `runner.c` BC_BEGIN_LOOP, together with the compiler | `Spec/SourceLoop.lean` (effects of commands for a list of values); `Props/SourceLoop.lean`: the meaning of the loop by induction over the rounds, then C85; a loop whose first value is past the limit: the specification says how its NEXT is found in the text (`seek`), and `Proof/SourceSkip.lean` shows that the search of cmd_for in the code (`skipLoop`) ends at the same place |
| C92 | `console.c` shared_input, its two copy loops, the array that continues in the next row | `Spec/LineInput.lean` (a line as the characters before and after the cursor); invariant `Shows'` over the rounds in `Proof/LineInput.lean`, `Props/LineInput.lean` |
| C93 | con_prompt, cmd_linput | as C92; prompt and scrolling from C25/C26 (`Proof/LinePrompt.lean`) |
| C94 | cmd_input, con_reprompt, u8_to_num | fields by induction over the variables (`Proof/LineFields.lean`); refused lines by induction over the lines |
| C95 | `panel.c` press_key and its tables (`Model/PanelData.lean`), the ring of keys | `Spec/Panel.lean` gives keys, faces and touches; the tables agree with it in every square (kernel evaluation over the finite table), durations and sequences by induction (`Proof/Panel.lean`) |
| C96 | cmd_pnlstr, cmd_key, set_function_key, cmd_iconset, cmd_iconclr, func_iconchk, init_panel | cells by induction over the text; icons by induction over the history |
| C97 | cmd_pnltype, set_panel_bg (which picture, not its content), the part of shared_input that changes the panel | cases |
| C98 | `mathptc.c` 47-94, 115-209 over real numbers; the C library is a parameter whose accuracy is a hypothesis of each theorem (`Spec/RealMath.lean`), not an axiom, and `accurate_exists`, `accurateF_exists` show that it can be met | Mathlib's real analysis: bounds of the functions, of π and e, floors |
| C99 | `calc_min_bytecode`, the launcher, the limits of `program.h` (`Model/ProgramSize.lean`), with the compiler of C74–C79 | a potential of three units for each character left, which pays for every byte written, through all passes (`Proof/CodeSize.lean`); bit by bit for the power of two |
| C100 | `set_touch`, the touch variables, the mouse of `main.c` (`Model/Touch.lean`) | induction over the history of frames; division lemmas for the mouse |
| C101 | `cmd_acls` with its program text (`Model/Acls.lean`), compiled by the compiler model and run by the machine model | the text is shown to be a way to write the program; its meaning is a chain of commands; C85's simulation with the call stack of the surrounding program below |
| C102 | the main loop as a transition system, with the other threads as actions that may happen at any moment (`Model/Launch.lean`) | invariant over all histories: the lines left to execute |
| C103 | the same; every access to `exec.error` is a step | a rank that decreases for all continuations; states in which the request has no effect |
| C104 | the table of messages and the buffer | the lengths of all messages |
| C105 | the tables of commands, functions and system variables filled with the models of console, graphics and string functions, and the operators on strings (`Model/Devices.lean`), called by the machine of C85 | refinement in two steps: compiled text against the meaning of the program over the devices (C85), the devices against the picture (C10–C19, C23–C29, C52) |
| C106 | variable table (C01, C02), array storage (C04–C06) and CLEAR together (`Model/Named.lean`) | refinement: relation between table + storage and a map from names to values and tables, kept by every operation; the initial state again after CLEAR |
| C107 | startup of characters and palettes, CHRINIT, COLINIT over a map of files (`Model/Initial.lean`) | induction over the table of files; every valid name leads to the file of its resource (with C41) |
| C108 | the block allocator: base, next free byte, memory as bytes (`Model/Blocks.lean`) | refinement: the blocks handed out lie one after the other and the memory holds their bytes; kept by every operation |
| C109 | GCIRCLE: corners from `cos`/`sin` rounded and truncated, lines between them (`Model/Circle.lean`; `double` = reals with a rounding, C library = parameter) | error bounds over the reals (Mathlib): corner within √2 dots, chord within 0.08 of the arc, line within 1 dot (C52) |
| C110 | FILES over a list of directory entries (`Model/Listing.lean`), console model of C25/C26 | induction over the entries; each line is a PRINT of the console specification |
| C111… | see `properties.jsonl` | |

## Trusted base

* Lean 4.33.0's kernel and the axioms `propext`, `Classical.choice`, `Quot.sound` (no others; `vcheck` lists them per theorem).
* The faithfulness of the transcription: each definition cites the lines it models and says what it simplifies.
* For the picture (C80–C84): SFML and OpenGL fill axis-parallel quads by pixel centres, take the nearest texel of linearly
  interpolated coordinates, and blend alpha 0 / 255 as "leave" / "replace".

Modelled: the compiler from source text to bytecode (`tokens.c`), the machine that runs the bytecode (`runner.c`, `flow.c`, `stack.c`,
`bytecode`, `data.c`), numbers, strings, variables, arrays, labels, sorting, the text screen, BG, graphics, sprites, buttons and key
buffer, resources and files, system variables, memory commands, the compression of program files, the PC picture.

Not modelled: floating point as such (SIN, COS, ATAN, SQR, POW, EXP, LOG are modelled with real numbers, C98; rotated sprites and GCIRCLE are not), sound (not implemented in the code), the
operating system (file contents and clock are arbitrary inputs), the NDS hardware and `graphics/nds`, threads other than as arbitrary
interleavings of frames, the launcher.

## Defects found

Each is the subject of a `…_violated` theorem unless marked (·), which were found while transcribing.

* Arrays and variables: see C05, C06, C61; READ and CHRREAD lose the string they overwrite (C20); (·) `ADDR` copies names of any length
  into 17 bytes.
* Numbers: literals beyond 32 bits wrap around silently (C60), (·) FREEMEM etc. see C73.
* Strings: SUBST$ overflow (C19), lengths truncated to 16 bits (C18); (·) `A$=MEM$` with a full pool copies to NULL.
* Sorting does not sort some inputs (C22).
* Compiler: PRINT before ELSE changes how the statement after ELSE is read: `IF A THEN PRINT 1 ELSE LOCATE 1,2` is rejected, and the commas of `IF A THEN PRINT 1 ELSE ON B GOTO @P,@Q` become items of the list (C87).
* Compiler: DIM before ELSE likewise: in `IF A THEN DIM C(1) ELSE PRINT B(1)` the element `B(1)` is compiled as another DIM, and `… ELSE B(1)=2` is rejected (C87).
* RESTORE as the first statement after THEN or ELSE is a jump: `cmd_if` takes any label that is not followed by GOTO or GOSUB for a target of its own, so `IF A THEN RESTORE @D` goes on at `@D` and leaves the DATA position unchanged (C87).
* Sprites: a sprite just made is reported as turning and being scaled (SPCHK 6), SPREAD gives the character as a fraction and the
  scale as a factor instead of percent, SPHOME wraps around (C89); SPHITX/Y/T are not implemented, ERL is always 1 (C90).
* Display: BGCLIP has no effect on the PC (C81), negative BG offsets are a tile off (C81), POKE to the character memory is not shown and
  names without a bank number mark the wrong page (C84), COLREAD reports 255 where 248 is shown (C80); (·) on the NDS the clip window
  excludes the last column and row, sprites stack in the opposite order, and home positions are not scaled.
* Files: (·) PRGNAME$ is copied from an uninitialised header for one format; the size field of a program file is not bounded (C67); a
  program is replaced although RESULT is 0 when its packages fail (C66); LOAD does not check the type of the file; EXEC does not verify
  the name (C65).
* System variables: read-only numeric ones can be assigned and the store goes to a wild address (C63); TABSTEP reads back unclamped, ICONPAGE is validated
  before ICONPMAX (C71); MAINCNTL becomes negative after 2^19 frames (C72).
* Compiler: lines of 100 and more tokens overrun the token array, names that continue a keyword of eight letters are misread (C77);
  `&`, `@`, `LABEL` at the end of a line swallow the next one, an unterminated last line is dropped (C79).
* Line editor: BACKSPACE in a full line in the last row reads behind the screen, the INSERT key has no effect, a character that comes with L or R
  is lost (C92); old text in the row becomes part of the input, the line after a question mark in the last cell is outside the screen (C93);
  INPUT of 32 digits overflows an array, a string of 32 characters loses the last, spaces separate fields uncounted (C94); (·) a refused
  line already changes the variables before the bad field.
* Panel: sliding from a key to a place without one reads the key table at index −1, the page buttons work while they are hidden (C95); ICONSET
  takes icon 64 (C96); changing between OFF and PNL does not change the picture, INPUT leaves the keyboard picture (C97); (·) on the PC,
  katakana typed on the real keyboard are off, and a key stays pressed while the mouse is outside the lower screen.
* EXP from 13.18 on, TAN near its poles, SQR of negative numbers and POW of a negative base with a broken exponent convert a number outside the
  range (or not-a-number) to an integer, which is undefined, instead of reporting an error; POW has single precision, so POW(X,1) is not
  always X (C98); (·) POW also prints its result.
* A correct program of 500000 characters and 10000 lines gives a million bytes of code, written into memory of 524288 bytes; the prompt's table of
  lines is calculated from the wrong program and has no entry; labels written `LABEL NAME` are not counted (C99).
* TCHTIME is -524288 after two and a half hours; with the PC version the screen stays touched when the mouse button is released outside the
  lower screen; a window of one line leads to a division by zero (C100).
* When a command of ACLS fails (or 255 subroutines or loops are under way) the variables of the program are lost: the table with four
  entries stays in use (C101).
* SELECT at the prompt executes the last line (or the contents of `CODE$`) once more; a string of more than 32 characters in `CODE$` then
  overruns the buffer; EDIT mode cannot be entered (C102).
* The window thread writes `exec.error` without synchronisation: closing the window while a line is compiled, between two lines or during an
  instruction that writes the error number is lost, and the system hangs; the same for SELECT (C103).
* (·) "Label not found" shows uninitialised bytes after the name of the label.
* (C106) CLEAR inside a FOR loop: the loop keeps the place of its variable, which another variable can get;
  `FOR I=1 TO 10:CLEAR:YP=7:NEXT` adds 1 to `YP`.
* (C32) NEXT with the variable of an outer loop while an inner loop is open: the outer loop's limit is compared with the inner loop's
  variable; `FOR I=0 TO 1:FOR J=5 TO 9:NEXT I` ends with "FOR without NEXT" (C32_inner_violated).
* (C108) requests beyond the end of the block are not refused: the address lies outside the memory (C108_exhausted_violated); after a table
  whose size is no multiple of the alignment (the text data, 770 bytes) the next table is misaligned (C108_alignment_violated).
* (C109) GCIRCLE in XOR mode draws the joints of its lines twice; a circle of radius 0 vanishes (C109_xor_violated).  The form with angles
  draws the whole circle and ignores its colour (C109_arc_violated).
* (C110) FILES: a file without a dot in its name or a missing directory is undefined behaviour; on platforms with signed `char` a name with
  128 or more characters before the dot is copied over the stack (C110_names_violated); unusable files are listed (the character test has no
  effect, C110_filter_violated); the type argument is ignored (C110_type_violated).
* (C107) COLINIT with one colour reads the wrong argument; SPCLR and SPPAGE do not check their number; GPAGE changes its state before reporting an error.
