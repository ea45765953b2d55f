{"id": "C01", "title": "Variables behave as a finite map", "statement": "After any sequence of accesses to simple variables and arrays names, a (name, type) pair always designates the same storage, two different pairs never share storage, a read returns the last value assigned to that variable, and a variable never assigned before reads as 0 (numbers) or the empty string.", "quantifier": "every table size 2^k, every history of lookups/assignments, every set of names including all hash collisions", "why_tests_cant": "A test samples a handful of names; sharing could appear only for particular collision chains and fill levels.", "anchors": ["source/interpreter/vars.c: search_name_type, get_var, search_get_var", "source/interpreter/strs.c: name_hash, namecmp"]}
{"id": "C02", "title": "Variable creation fails only when the table is really full", "statement": "Accessing a new variable reports Out of memory if and only if the table already holds as many distinct variables as its capacity; FREEVAR reports exactly the number of variables that can still be created.", "quantifier": "every table size 2^k, every reachable table content, every new name", "why_tests_cant": "Whether the probe sequence reaches every free slot depends on number theory of the table size, not on sampled cases.", "anchors": ["source/interpreter/vars.c: search_name_type, get_var, get_new_arr_var", "source/subsystem/sysvars.c: syschk_freevar"]}
{"id": "C03", "title": "Labels resolve to their unique definition", "statement": "Looking up a label gives the program position at which that label was defined; defining a label twice is rejected; a label never defined is reported as not found; definition fails only for duplicates or a full table.", "quantifier": "every label table size 2^k, every sequence of label definitions, every looked-up name", "why_tests_cant": "Collision chains and fullness are unbounded in combination.", "anchors": ["source/interpreter/label.c: add_label, find_label, find_label_slot", "source/interpreter/strs.c: name_hash, namecmp"]}
{"id": "C04", "title": "Array elements are independent cells", "statement": "Writing one element of one array changes no other element of that array, nor any element of any other array, and reading it back gives the value written.", "quantifier": "every sequence of DIMs, every in-range index pair, every pool size", "why_tests_cant": "Aliasing between allocations depends on the full allocation history.", "anchors": ["source/interpreter/arrays.c: get_new_arr, arr_entry", "source/interpreter/vars.c: get_arr_entry_via_ptr"]}
{"id": "C05", "title": "Array subscripts are range checked", "statement": "Using a subscript outside the dimensions given in DIM (including giving two subscripts to a one-dimensional array) is reported as Subscript out of range and touches no memory outside the array.", "quantifier": "every dimension, every subscript value, every 1-D/2-D combination", "why_tests_cant": "Only particular dimension/subscript combinations slip through a check.", "anchors": ["source/interpreter/vars.c: get_arr_entry_via_ptr", "source/interpreter/arrays.c: arr_entry"]}
{"id": "C06", "title": "DIM reserves the whole array or reports Out of memory", "statement": "If DIM succeeds, the array owns size1*size2 elements inside the pool, disjoint from all other arrays, all initialised to zero/empty; otherwise Out of memory is reported and nothing is reserved.", "quantifier": "every pool size and DIM history, every pair of requested dimensions", "why_tests_cant": "Arithmetic overflow of the size computation needs sizes no test uses.", "anchors": ["source/interpreter/arrays.c: get_new_arr, get_new_str_arr", "source/interpreter/vars.c: get_new_arr_var"]}
{"id": "C07", "title": "Fixed-point arithmetic is exact or reports Overflow", "statement": "x+y, x-y, x*y and x/y produce the mathematically exact result rounded to 1/4096 (product toward minus infinity, quotient toward zero) whenever it fits in a 20.12 number, and report Overflow exactly when it does not; no intermediate overflows.", "quantifier": "every pair of 32-bit operands", "why_tests_cant": "2^64 operand pairs.", "anchors": ["source/interpreter/operators.c: op_add, op_sub, op_mult, op_div"]}
{"id": "C08", "title": "Division and remainder by zero and the remainder law", "statement": "x/0 and x%0 report Divide by zero and every other x%y satisfies x = q*y + r with |r|<|y| and r having the sign of x.", "quantifier": "every pair of 32-bit operands", "why_tests_cant": "2^64 operand pairs; the single undefined pair is easily missed.", "anchors": ["source/interpreter/operators.c: op_div, op_modulo, op_negate"]}
{"id": "C09", "title": "Bitwise operators act on the integer part", "statement": "AND, OR, XOR and NOT compute the two's complement bitwise operation on the floor of the operands and always give an integer; comparison operators give 1 or 0 according to the numeric order; logical ! gives 1 exactly for 0.", "quantifier": "every pair of 32-bit operands", "why_tests_cant": "2^64 operand pairs.", "anchors": ["source/interpreter/operators.c: op_and, op_or, op_xor, op_not, op_equal, op_less, op_logical_not"]}
{"id": "C10", "title": "STR$ prints the number rounded to three decimals", "statement": "STR$ of any number is a canonical decimal numeral (optional minus, no leading zeros, at most three decimals, no trailing zeros) whose value is the number rounded to the printed precision.", "quantifier": "every 32-bit fixed-point value", "why_tests_cant": "2^32 values; the defect sits at 2 of 4096 fraction patterns.", "anchors": ["source/interpreter/strs.c: fixp_to_char", "source/interpreter/strfuncs.c: func_str"]}
{"id": "C11", "title": "VAL evaluates decimal numerals", "statement": "VAL of a decimal numeral with integer part below 524288 is its value truncated to 1/4096; parsing stops at the first invalid character; every string is accepted without a crash.", "quantifier": "every string", "why_tests_cant": "Failures need long fractional parts.", "anchors": ["source/interpreter/strs.c: str_to_number, digit_value", "source/interpreter/strfuncs.c: func_val"]}
{"id": "C12", "title": "VAL inverts STR$ up to printing precision", "statement": "VAL(STR$(x)) differs from x by less than one thousandth, and equals x whenever x is an integer.", "quantifier": "every 32-bit fixed-point value", "why_tests_cant": "2^32 values.", "anchors": ["source/interpreter/strs.c: fixp_to_char, str_to_number"]}
{"id": "C13", "title": "HEX$ and VAL(\"&H...\") are inverse", "statement": "HEX$(n,d) has exactly d digits (or the minimal number when d is absent), rejects values that do not fit, and VAL(\"&H\"+HEX$(n)) recovers n modulo 2^20.", "quantifier": "every number and digit count", "why_tests_cant": "2^32 x 6 combinations.", "anchors": ["source/interpreter/strfuncs.c: func_hex, func_val"]}
{"id": "C14", "title": "Character code conversion is lossless", "statement": "Converting any 8-bit character code to its Unicode form and back gives the same code; CHR$ and ASC are inverse.", "quantifier": "all character codes; all strings", "why_tests_cant": "Finite table, but the lift to all strings is unbounded.", "anchors": ["source/interpreter/strs.c: to_wide, to_char, str_copy_buf", "source/interpreter/strfuncs.c: func_chr, func_asc"]}
{"id": "C15", "title": "String comparison is a total order consistent with equality", "statement": "<, <=, ==, !=, >=, > on strings are the lexicographic order on (wide) characters: total, transitive, antisymmetric, and == holds iff the contents are identical, independently of internal representation.", "quantifier": "every pair/triple of strings of every length and every internal representation", "why_tests_cant": "Unbounded lengths.", "anchors": ["source/interpreter/strs.c: str_lex, str_comp", "source/interpreter/operators.c: compare"]}
{"id": "C16", "title": "LEFT$, RIGHT$, MID$ select the documented substring", "statement": "LEFT$(s,n) is the first min(n,len) characters, RIGHT$(s,n) the last min(n,len), MID$(s,i,n) the at most n characters from position i; LEFT$(s,n)+RIGHT$(s,LEN(s)-n)=s; negative arguments report an error; no argument causes memory to be overwritten.", "quantifier": "every string and every argument value", "why_tests_cant": "The 16-bit truncation of arguments only shows for arguments above 32767.", "anchors": ["source/interpreter/strfuncs.c: func_left, func_right, func_mid"]}
{"id": "C17", "title": "INSTR returns the first occurrence", "statement": "INSTR(start,s,t) is the least position >= start at which t occurs in s, or -1 if there is none.", "quantifier": "every pair of strings and every start position", "why_tests_cant": "Unbounded strings.", "anchors": ["source/interpreter/strfuncs.c: func_instr"]}
{"id": "C18", "title": "SUBST$ replaces exactly the requested range", "statement": "SUBST$(s,i,n,r) is s with characters i..i+n-1 replaced by r, and a result longer than 256 characters is reported as String too long and never written.", "quantifier": "every string, replacement and position", "why_tests_cant": "The overflow requires a particular sum of three lengths.", "anchors": ["source/interpreter/strfuncs.c: func_subst"]}
{"id": "C19", "title": "Concatenation and repetition", "statement": "s+t is the concatenation and s*n the n-fold repetition when the result has at most 256 characters; otherwise String too long is reported and no memory beyond the string buffer is written.", "quantifier": "every pair of strings and count", "why_tests_cant": "Unbounded inputs.", "anchors": ["source/interpreter/operators.c: op_add, op_mult", "source/interpreter/strs.c: str_concat"]}
{"id": "C20", "title": "String storage is never shared or lost", "statement": "A string buffer is never handed out while a variable still refers to it, each buffer's use count equals the number of variables holding it, and buffers no longer referenced become available again.", "quantifier": "every history of string assignments, concatenations, swaps and clears", "why_tests_cant": "Leaks accumulate over histories.", "anchors": ["source/interpreter/strs.c: get_new_str", "source/interpreter/operators.c: op_assign", "source/interpreter/runner.c: value_str", "source/interpreter/data.c: read_one_u8"]}
{"id": "C21", "title": "SORT permutes and keeps parallel arrays aligned", "statement": "SORT/RSORT rearranges exactly the requested range of the key array by a permutation, applies the same permutation to every extra array, and leaves all other elements untouched.", "quantifier": "every array content, range and number of parallel arrays", "why_tests_cant": "n! permutations.", "anchors": ["source/subsystem/variables.c: sort_, _partition, _sort_swap, quick_sort"]}
{"id": "C22", "title": "SORT sorts", "statement": "After SORT the range is in ascending order (RSORT: descending).", "quantifier": "every array content and range", "why_tests_cant": "n! inputs; failure depends on recursion cut-offs.", "anchors": ["source/subsystem/variables.c: quick_sort, _partition"]}
{"id": "C23", "title": "Compression round-trips", "statement": "Decompressing what the compressor produced gives the original bytes, for every cache size; the compressor never claims success with output as large as the input.", "quantifier": "every byte buffer and every cache size", "why_tests_cant": "Unbounded data; cache behaviour depends on whole history.", "anchors": ["source/extension/compress.c: sbc_compress, sbc_decompress, sbc_write_bits, sbc_read_bits"]}
{"id": "C24", "title": "Keyboard buffer is a FIFO", "statement": "Characters typed are returned by INKEY$ in the order typed, none invented, none duplicated, none lost while fewer than the buffer capacity are pending.", "quantifier": "every interleaving of key presses and INKEY$ calls, including index wrap-around", "why_tests_cant": "Wrap-around and interleavings are unbounded.", "anchors": ["source/subsystem/input.c: set_inkey, get_inkey"]}
{"id": "C25", "title": "Console writes stay on the screen", "statement": "Whatever is printed, located or scrolled, every character cell written lies inside the 32x24 console and the cursor stays within its documented range.", "quantifier": "every sequence of PRINT/LOCATE/CLS/scroll operations", "why_tests_cant": "Unbounded sequences.", "anchors": ["source/subsystem/console.c: con_put, con_puts, con_newline, con_scroll, cmd_print, cmd_locate"]}
{"id": "C26", "title": "Printed text appears in reading order", "statement": "The characters printed appear on the console in reading order starting at the cursor, wrapped at 32 columns, scrolling up by exactly the number of overflowing lines.", "quantifier": "every string and every cursor position", "why_tests_cant": "Unbounded strings.", "anchors": ["source/subsystem/console.c: con_puts, con_put, con_newline, con_scroll"]}
{"id": "C27", "title": "BG layers are faithful 64x64 maps", "statement": "Each BG coordinate has its own cell inside the layer's memory; BGREAD after BGPUT returns the tile data written at that coordinate and no other coordinate changes.", "quantifier": "every coordinate pair, every tile value, every history", "why_tests_cant": "2^24 coordinate pairs times history.", "anchors": ["source/subsystem/background.c: bg_index, cmd_bgput, cmd_bgread, to_tiledata"]}
{"id": "C28", "title": "BGFILL and BGCOPY touch exactly the rectangle", "statement": "BGFILL writes exactly the cells of the rectangle spanned by its corners (in any order, clamped to the map); BGCOPY copies the source rectangle to the destination and touches only cells of the map.", "quantifier": "all corner coordinates", "why_tests_cant": "2^36 rectangles.", "anchors": ["source/subsystem/background.c: cmd_bgfill, cmd_bgcopy"]}
{"id": "C29", "title": "Graphics pixels are independent and clipped", "statement": "Each in-screen pixel has its own byte of the 256x192 page; GSPOIT after GPSET returns the colour; off-screen drawing changes nothing.", "quantifier": "every coordinate, including off-screen, and every colour", "why_tests_cant": "2^64 coordinates.", "anchors": ["source/subsystem/graphics.c: grp_index, grp_pixel, cmd_gpset, func_gspoit"]}
{"id": "C30", "title": "XOR drawing is an involution", "statement": "With XOR mode on, performing the same drawing operation twice restores the page.", "quantifier": "every page content and every list of pixels drawn", "why_tests_cant": "Unbounded.", "anchors": ["source/subsystem/graphics.c: grp_pixel, draw_line, cmd_gbox, cmd_gfill"]}
{"id": "C31", "title": "GOSUB/RETURN nest", "statement": "RETURN continues after the matching GOSUB for any nesting (discarding loops opened since), nesting depth is bounded with Out of memory reported, and RETURN without GOSUB is reported.", "quantifier": "every sequence of GOSUB/FOR/NEXT/RETURN", "why_tests_cant": "Unbounded call histories.", "anchors": ["source/interpreter/flow.c: cmd_gosub, cmd_return, cmd_for, cmd_next", "source/interpreter/stack.c"]}
{"id": "C32", "title": "FOR/NEXT iterates the documented values", "statement": "A FOR I=a TO b STEP s loop runs its body with I=a, a+s, a+2s,... as long as the value has not passed b, then I holds the first value past b; it terminates for every non-zero step, or reports Overflow.", "quantifier": "every a, b, s in 32-bit fixed point", "why_tests_cant": "2^96 triples and unbounded iteration counts.", "anchors": ["source/interpreter/flow.c: cmd_for, cmd_next"]}
{"id": "C33", "title": "ON GOTO/GOSUB selects the n-th label", "statement": "ON n GOTO l0,l1,... jumps to the n-th label (n = floor of the value) and falls through if n is out of range.", "quantifier": "every n and every label list", "why_tests_cant": "Unbounded.", "anchors": ["source/interpreter/flow.c: cmd_goto, cmd_gosub", "source/interpreter/runner.c"]}
{"id": "C34", "title": "Numeric literals survive tokenising", "statement": "The value pushed at run time for a numeric constant is exactly the value parsed from the source, for every 32-bit constant and both encodings.", "quantifier": "every 32-bit constant", "why_tests_cant": "2^32 constants.", "anchors": ["source/interpreter/tokens.c: tok_code", "source/interpreter/runner.c: BC_NUMBER, BC_SMALL_NUMBER"]}
{"id": "C35", "title": "Bytecode keeps its instruction boundaries", "statement": "Every token is encoded in an even number of bytes and the scanner used by IF/FOR/DATA to skip code advances from one instruction boundary to the next, visiting exactly the emitted instructions.", "quantifier": "every token sequence", "why_tests_cant": "Unbounded programs; payload bytes can imitate opcodes.", "anchors": ["source/interpreter/tokens.c: tok_code", "source/interpreter/program.c: bc_scan, bc_scan_pair"]}
{"id": "C36", "title": "Expressions respect precedence and parentheses", "statement": "Compiling an expression yields postfix code whose evaluation equals the value given by the documented operator precedence, left associativity and parentheses.", "quantifier": "every expression tree", "why_tests_cant": "Unbounded nesting.", "anchors": ["source/interpreter/tokens.c: tok_prio, tok_eval"]}
{"id": "C37", "title": "READ returns the DATA items in order", "statement": "READ returns the items of the DATA statements in program order, RESTORE resets to the first item after the label, and reading past the last item reports Out of DATA.", "quantifier": "every program's DATA layout and READ sequence", "why_tests_cant": "Unbounded.", "anchors": ["source/interpreter/data.c: cmd_read, read_one_u8, find_data, cmd_restore", "source/interpreter/tokens.c: tok_data"]}
{"id": "C38", "title": "PEEK/POKE/MEMCOPY/MEMFILL stay inside the allowed window", "statement": "With memory protection on, the memory access functions either report an error and change nothing, or touch only bytes of the allowed address window.", "quantifier": "every address and size", "why_tests_cant": "2^64 argument pairs.", "anchors": ["source/extension/sbc_memory.c"]}
{"id": "C39", "title": "CHRSET/CHRREAD round-trip", "statement": "CHRREAD after CHRSET returns the same 64-digit pattern for every valid pattern, and other characters are unchanged.", "quantifier": "every bank, character and pattern", "why_tests_cant": "16^64 patterns.", "anchors": ["source/subsystem/resources.c: cmd_chrset, cmd_chrread"]}
{"id": "C40", "title": "COLSET/COLREAD is stable", "statement": "COLREAD after COLSET returns the colour reduced to the bits the hardware keeps (5 red, 6 green, 5 blue), and setting the returned colour again changes nothing.", "quantifier": "all 2^24 colours", "why_tests_cant": "Finite but large; argument is structural.", "anchors": ["source/subsystem/resources.c: cmd_colset, cmd_colread"]}
{"id": "C41", "title": "Resource names map to distinct resources", "statement": "Every valid resource name resolves to one bank and different (type, bank, screen) triples resolve to different memory; invalid names are rejected.", "quantifier": "every name string", "why_tests_cant": "Unbounded strings.", "anchors": ["source/subsystem/resources.c: get_resource_ptr, verify_resource_type, get_chr_index"]}
{"id": "C42", "title": "Button state and key repeat", "statement": "BUTTON(1..3) report pressed / released / held exactly as the per-frame history of the button says, with BREPEAT delay and interval.", "quantifier": "every sequence of frames", "why_tests_cant": "Unbounded histories.", "anchors": ["source/subsystem/input.c: set_input, check_repeat, func_button"]}
{"id": "C43", "title": "Timed movement arrives exactly", "statement": "BGOFS/SPOFS with a time t reaches exactly the target after t frames, and before that stays in motion; time 0 moves at once.", "quantifier": "every start, target and time", "why_tests_cant": "2^96 combos.", "anchors": ["source/subsystem/background.c: step_background, cmd_bgofs", "source/subsystem/sprites.c: step_sprites, cmd_spofs"]}
{"id": "C44", "title": "SPHIT reports the first colliding sprite", "statement": "SPHIT(n) returns 1 and SPHITNO the least-numbered other active sprite that overlaps n, -1/0 if there is none.", "quantifier": "every arrangement of 100 sprites", "why_tests_cant": "Unbounded arrangements.", "anchors": ["source/subsystem/sprites.c: is_hit, func_sphit, sys_sphitno"]}
{"id": "C45", "title": "SAVE then LOAD restores the resource", "statement": "Loading a file written by SAVE gives back the identical bytes/program text.", "quantifier": "every resource content and name", "why_tests_cant": "Unbounded contents.", "anchors": ["source/subsystem/resources.c: cmd_save, cmd_load, load_program, save_program"]}
{"id": "C46", "title": "SWAP exchanges two variables", "statement": "SWAP A,B exchanges the two values and changes nothing else; applying it twice is the identity; string use counts are unchanged.", "quantifier": "all values and variables", "why_tests_cant": "Unbounded states.", "anchors": ["source/subsystem/variables.c: cmd_swap"]}
{"id": "C47", "title": "DTREAD/TMREAD parse exactly the documented format", "statement": "DTREAD and TMREAD succeed exactly on strings of the form NNNN/NN/NN and NN:NN:NN and return the numbers written.", "quantifier": "every string", "why_tests_cant": "Unbounded strings.", "anchors": ["source/interpreter/strfuncs.c: cmd_dtread, cmd_tmread"]}
{"id": "C48", "title": "IF/THEN/ELSE executes exactly one branch of its line", "statement": "On a line IF c THEN a ELSE b a true condition runs a and skips everything after ELSE to the end of the line, a false one skips to the ELSE and runs b; without ELSE a false condition skips the rest of the line. With several IFs on a line an ELSE belongs to the nearest IF before it and to no other.", "quantifier": "every line, whatever the length and the commands on it", "why_tests_cant": "Unbounded lines and nestings of IF on a line.", "anchors": ["source/interpreter/flow.c: cmd_if, cmd_else"]}
{"id": "C49", "title": "Sprites are stepped independently", "statement": "Each frame advances every sprite's movement and animation according to its own state, independently of the others.", "quantifier": "every sprite configuration", "why_tests_cant": "Unbounded.", "anchors": ["source/subsystem/sprites.c: step_sprites"]}
{"id": "C50", "title": "Commands accept exactly the documented argument shapes", "statement": "A command call is accepted if and only if its argument types match one of the alternatives of its declared signature.", "quantifier": "every signature string and argument list", "why_tests_cant": "Unbounded.", "anchors": ["source/interpreter/tokens.c: check_cmd, tok_test"]}
{"id": "C51", "title": "Integer mathematical functions", "statement": "FLOOR gives the greatest integer not above its argument, ABS the absolute value, SGN the sign, RND(n) an integer in 0..n-1, RAD and DEG the argument scaled by pi/180 and 180/pi, each for every argument whose result fits a 20.12 number, and otherwise an error is reported.", "quantifier": "every 32-bit fixed-point argument and every random state", "why_tests_cant": "2^32 arguments each; the failing arguments are at the extreme ends of the range", "anchors": ["source/interpreter/mathptc.c: func_rnd, func_floor, func_abs, func_sgn, func_rad, func_deg"]}
{"id": "C52", "title": "GLINE draws a straight line", "statement": "GLINE from one point to another draws each dot of one straight line exactly once: it contains both end points, has no gaps, and every dot is less than one dot away from the ideal line; dots off the screen are not drawn.", "quantifier": "every pair of points, colour, drawing mode and page content", "why_tests_cant": "2^64 pairs of points; rounding errors accumulate with the length", "anchors": ["source/subsystem/graphics.c: cmd_gline, grp_line"]}
{"id": "C53", "title": "GCOPY copies the source rectangle", "statement": "GCOPY copies the dots of the source rectangle to the destination as they were before the command, also when the rectangles overlap; dots off the screen read as 0 and are not written; without the copy mode flag dots of colour 0 leave the destination unchanged.", "quantifier": "every pair of pages, rectangle, destination, mode and page content", "why_tests_cant": "the direction of the copy loops matters only for particular overlaps", "anchors": ["source/subsystem/graphics.c: cmd_gcopy"]}
{"id": "C54", "title": "GPAINT fills exactly the connected region", "statement": "GPAINT paints exactly the dots connected to the start through dots that may be painted over (the start's colour, or everything but the border colour) and changes no other dot; it always ends, and reports Paint stack overflow if it cannot finish.", "quantifier": "every page content, start point, colour and border colour", "why_tests_cant": "2^393216 page contents; correctness needs an invariant relating the span stack to the region", "anchors": ["source/subsystem/graphics.c: cmd_gpaint, inside"]}
{"id": "C55", "title": "GPUTCHR draws the character pattern", "statement": "GPUTCHR draws the 8x8 pattern of the character, each dot enlarged to the requested scale, in the colours of the palette, clipped to the screen, and changes nothing else.", "quantifier": "every character pattern, position, palette, scale and page content", "why_tests_cant": "The position, scale and pattern spaces are too large to enumerate", "anchors": ["source/subsystem/graphics.c: cmd_gputchr"]}
{"id": "C56", "title": "Sprite variables keep their values", "statement": "SPGETV(id,k) returns the value last stored by SPSETV id,k, after any number of frames; storing one variable changes no other variable of any sprite; SPSET starts with all eight variables 0.", "quantifier": "every sprite, variable, value, state and number of frames", "why_tests_cant": "Unbounded histories and 2^32 values; interference between slots shows only for particular index pairs", "anchors": ["source/subsystem/sprites.c: cmd_spsetv, func_spgetv, cmd_spset, step_sprites"]}
{"id": "C57", "title": "SPANIM plays the animation as requested", "statement": "m frames after SPANIM id,n,t,k the sprite shows its character plus (m / t) mod n steps; with k > 0 the animation runs for exactly k*n*t frames, as SPCHK reports, and then keeps the last character; with k = 0 it runs forever.", "quantifier": "every sprite, n, t, k and number of frames", "why_tests_cant": "Off-by-one errors in nested frame, character and loop counters over unbounded time", "anchors": ["source/subsystem/sprites.c: step_sprites, cmd_spanim, get_sprite_chr, func_spchk"]}
{"id": "C58", "title": "Sprite commands require an existing sprite", "statement": "After SPCLR a sprite does not exist; commands that change a sprite which does not exist report an error and change nothing; no sprite command accesses memory outside the sprite table.", "quantifier": "every state, command and argument list", "why_tests_cant": "All argument values of thirteen commands in all states", "anchors": ["source/subsystem/sprites.c: cmd_sp*"]}
{"id": "C59", "title": "Timed scaling and turning arrive exactly", "statement": "SPSCALE and SPANGLE with a time t reach exactly the requested scale or angle after t frames and stay there; time 0 changes it at once.", "quantifier": "every start, target, time and direction", "why_tests_cant": "2^96 combinations; the error appears one frame after the end", "anchors": ["source/subsystem/sprites.c: cmd_spscale, cmd_spangle, step_sprites"]}
{"id": "C60", "title": "Literals that are too large are reported", "statement": "A decimal literal whose integer part does not fit the number type (524288 or more) is rejected with Overflow when the line is compiled, never silently replaced by another value.", "quantifier": "every decimal literal", "why_tests_cant": "Unbounded digit strings; the parser stops early on large values.", "anchors": ["source/interpreter/tokens.c: tok_code", "source/interpreter/strs.c: str_to_number"]}
{"id": "C61", "title": "A failed DIM does not affect later statements", "statement": "After an out-of-range subscript, a repeated DIM or an out-of-memory error has been reported, a later valid DIM succeeds.", "quantifier": "every program and history of errors", "why_tests_cant": "The failure depends on earlier runs.", "anchors": ["source/interpreter/runner.c: BC_DIM", "source/interpreter/vars.c: get_new_arr_var, get_var, get_arr_entry_via_ptr"]}
{"id": "C62", "title": "Execution stays on instruction boundaries", "statement": "Whatever a compiled program does (jumps, subroutine calls and returns, loops, skipped branches and loops, evaluation of loop limits), the interpreter always fetches at the start of an instruction of the program or has reached its end; it never executes operand or text bytes and never reads past the end.", "quantifier": "every compiled program and every execution", "why_tests_cant": "Unbounded programs and executions.", "anchors": ["source/interpreter/runner.c: _run", "source/interpreter/flow.c", "source/interpreter/program.c: bc_scan"]}
{"id": "C63", "title": "Read-only system variables cannot be changed", "statement": "An assignment to a system variable that is not documented as writable (TRUE, FREEMEM, VERSION, ...) is rejected with an error and changes nothing; no program can use one as the target of a store.", "quantifier": "every statement with a system variable as target", "why_tests_cant": "All combinations of storing commands and system variables; the effect of a wrong store depends on memory contents.", "anchors": ["source/interpreter/tokens.c: tok_test, tok_code", "source/interpreter/operators.c: op_assign", "source/subsystem/sysvars.c: sysvars"]}
{"id": "C64", "title": "PTR$ formats an address", "statement": "The text of an address is 0x followed by exactly eight upper-case hexadecimal digits whose value is the address.", "quantifier": "every address", "why_tests_cant": "2^32 addresses.", "anchors": ["source/extension/sbc_memory.c: func_ptr"]}
{"id": "C65", "title": "File commands touch only the named program file", "statement": "SAVE writes, and LOAD, APPEND and EXEC read, exactly the file programs/NAME.PTC where NAME is the valid file name given (1 to 8 letters, digits, underscores, after an optional resource type and colon); no name a program can build reaches any other file.", "quantifier": "every file name string, file system content and state", "why_tests_cant": "The space of names (including path separators and dots) is unbounded; a security property over all of them.", "anchors": ["source/subsystem/resources.c: cmd_load, cmd_save, cmd_append, create_path, verify_resource_name", "source/interpreter/runner.c: cmd_exec"]}
{"id": "C66", "title": "LOAD is all or nothing", "statement": "LOAD either succeeds, setting RESULT to 1 and replacing the whole resource by the content of a file of the same type, or sets RESULT to 0 and changes neither any resource nor the program.", "quantifier": "every resource name and every file content", "why_tests_cant": "Files are arbitrary byte strings: wrong type, truncated, oversized fields.", "anchors": ["source/subsystem/resources.c: cmd_load, check_load_res, check_load_file, load_program"]}
{"id": "C67", "title": "Program files with packages load completely", "statement": "Loading a well-formed program file (either format, any package bits, any text that fits) gives the program exactly the text of the file, gives each resource whose package bit is set exactly the data in the file, and leaves every other resource unchanged.", "quantifier": "every package mask, text, resource data and earlier state", "why_tests_cant": "2^45 package masks and arbitrary contents; alignment padding depends on the text length.", "anchors": ["source/subsystem/resources.c: load_program, package_resources"]}
{"id": "C68", "title": "APPEND adds at the end and never overflows", "statement": "APPEND of a program file adds its text directly after the current program, truncated to the remaining program memory; earlier text and all other resources are unchanged; whatever the file contains nothing is written beyond the program memory.", "quantifier": "every program, file content and name", "why_tests_cant": "Arbitrary file contents including lying size fields.", "anchors": ["source/subsystem/resources.c: cmd_append, verify_file_type"]}
{"id": "C69", "title": "PACKAGE$ is the hexadecimal package mask", "statement": "After a program has been loaded PACKAGE$ is the package mask in upper-case hexadecimal without leading zeros, 0 for no packages.", "quantifier": "every mask", "why_tests_cant": "2^45 masks.", "anchors": ["source/subsystem/resources.c: load_program, sys_package"]}
{"id": "C70", "title": "Arrays used without DIM have ten elements", "statement": "Using an array that was never dimensioned is the same as executing DIM with 10 (or 10,10 when two subscripts are given) and then using it: subscripts 0..9 address elements holding the default value, anything else is Subscript out of range; without room it is Out of memory and nothing changes.", "quantifier": "every admissible history of array operations, every subscript pair", "why_tests_cant": "All histories and all subscript values; the pool contents depend on the history.", "anchors": ["source/interpreter/vars.c: get_arr_entry_via_ptr", "source/interpreter/arrays.c"]}
{"id": "C71", "title": "Assignable system variables stay in range", "statement": "After a line that assigns TABSTEP, ICONPUSE, ICONPMAX, ICONPAGE or MEMSAFE, the values that are in effect and that can be read are in their documented ranges (TABSTEP 1..16, ICONPUSE and MEMSAFE 0 or 1, ICONPMAX a whole number >= 0, ICONPAGE a whole number in 0..ICONPMAX), a valid value is kept as assigned, nothing else changes; the page buttons keep ICONPAGE in range.", "quantifier": "every state, every list of assignments on a line, every value", "why_tests_cant": "All 2^32 values and all combinations of assignments on a line; the order of validation matters.", "anchors": ["source/subsystem/console.c: syschk_tabstep", "source/subsystem/panel.c: syschk_iconpage, syschk_iconpmax, syschk_iconpuse, press_key", "source/extension/sbc_memory.c: syschk_memsafe", "source/interpreter/tokens.c: tok_code"]}
{"id": "C72", "title": "MAINCNTL and MAINCNTH count the frames", "statement": "MAINCNTL is a non-negative frame counter and MAINCNTH counts its overflows: together they determine the number of frames since the start.", "quantifier": "every running time below 2^40 frames", "why_tests_cant": "Takes hours to centuries of running time.", "anchors": ["source/subsystem/sysvars.c: sys_maincntl, sys_maincnth"]}
{"id": "C73", "title": "FREEMEM tells how much can be dimensioned", "statement": "FREEMEM is the free array memory in whole kilobytes: after any history an array that needs at most that much can be dimensioned, one whose elements alone need a kilobyte more cannot.", "quantifier": "every admissible history of array operations, every array size", "why_tests_cant": "All histories.", "anchors": ["source/subsystem/sysvars.c: sys_freemem", "source/interpreter/arrays.c: get_init_new_arr"]}
{"id": "C74", "title": "TIME$ and DATE$ have the documented format", "statement": "TIME$ is HH:MM:SS and DATE$ is YYYY/MM/DD; TMREAD and DTREAD of them give back the clock's hour, minute, second, year, month and day.", "quantifier": "every date up to year 9999 and every time of day", "why_tests_cant": "The clock cannot be set by a test; all dates and times.", "anchors": ["source/subsystem/sysvars.c: sys_time, sys_date", "source/interpreter/strfuncs.c: cmd_dtread, cmd_tmread"]}
{"id": "C75", "title": "VISIBLE sets exactly the given layers", "statement": "VISIBLE with six arguments shows the layers whose argument is 1, hides those with argument 0, keeps those whose argument is left out and changes nothing else; any other argument list is an error that changes nothing.", "quantifier": "every previous setting and every argument list", "why_tests_cant": "All combinations of previous flags and arguments of any value.", "anchors": ["source/system.c: cmd_visible"]}
{"id": "C76", "title": "WAIT and VSYNC wait exactly as long as requested", "statement": "WAIT n and VSYNC n return at the first check at which n frames have passed since the command started or the program was interrupted; never earlier, and always when that moment comes.", "quantifier": "every behaviour of the clock and every moment of interruption", "why_tests_cant": "All schedules of the timer thread.", "anchors": ["source/system.c: cmd_wait, cmd_vsync"]}
{"id": "C77", "title": "A line of source text is split into the words it was written with", "statement": "For every line made of keywords (in any mixture of cases), names, numbers, strings, labels, operators, blanks and a comment or DATA text at the end, the compiler sees exactly these words in this order; keywords are only recognised as whole words, and a line cannot be read in two different ways.", "quantifier": "every well-formed source line, of any length within the 100 words and 255 characters per word the compiler can hold", "why_tests_cant": "All sequences of words, spellings and blanks; the interaction of neighbouring words is unbounded.", "anchors": ["source/interpreter/tokens.c: tok_none, tok_name, tok_string, tok_number, tok_base_number, tok_label, tok_in_str_index"]}
{"id": "C78", "title": "Compiling ends and stays inside the text", "statement": "Compiling ends for every source text, after at most one step of the main loop per character, the cursor never moving back; reading a program whose lines have at most 99 characters and do not run into the next line never leaves the text or the compiler's token table.", "quantifier": "every source text; for staying inside, every list of lines of at most 99 characters", "why_tests_cant": "All texts of any length.", "anchors": ["source/interpreter/tokens.c: tokenize_full, tok_none"]}
{"id": "C79", "title": "A program is its lines put together", "statement": "The code of a program is the code its lines have when compiled alone, one after the other; a label means the place where the code of its line begins; a line in error or repeating a label is replaced by an error instruction and does not change the code of any other line.", "quantifier": "every list of lines, with any label table history", "why_tests_cant": "Programs of any number of lines, all positions and kinds of errors.", "anchors": ["source/interpreter/tokens.c: tokenize_full, tok_convert", "source/interpreter/label.c: label_add, label_search"]}
{"id": "C80", "title": "What CHRSET and COLSET write is what the screen shows", "statement": "After CHRSET or COLSET and the next frame, the display shows exactly the characters and colours that are in memory: every dot of every character with the colour number CHRREAD returns, every colour with the components COLREAD returns; all other characters and colours keep their look.", "quantifier": "every history of character and colour commands and frames, every bank, character, dot and colour", "why_tests_cant": "All dots of all characters in all banks after every history.", "anchors": ["source/graphics/pc/display_pc.c: gen_chr_texture, gen_col_texture", "source/subsystem/resources.c: cmd_chrset, cmd_colset"]}
{"id": "C81", "title": "A BG layer shows its map", "statement": "A visible BG layer shows, at every pixel of the screen inside the BGCLIP area, the tile the map has there, with its palette and mirroring, the map being moved by BGOFS and repeating; hidden layers show nothing.", "quantifier": "every map, offset, clip area, screen, layer and pixel", "why_tests_cant": "256 x 192 pixels times all offsets and maps.", "anchors": ["source/graphics/pc/display_pc.c: display_background", "source/graphics/pc/tilemap.c", "source/subsystem/background.c: cmd_bgclip"]}
{"id": "C82", "title": "The picture of a screen is the topmost visible layer", "statement": "Every pixel shows the topmost layer that is not transparent there: cursor or icons, then by priority sprites and graphics, the text screen above priority 1, BG layer 0 above priority 2, BG layer 1 above priority 3; layers hidden by VISIBLE are left out; on the lower screen an open panel lies over all but priority 0.", "quantifier": "every state of the screens and every pixel", "why_tests_cant": "All combinations of layers at all pixels.", "anchors": ["source/graphics/pc/display_pc.c: display_draw_all, display_console, display_panel_console, display_panel_background, display_graphics, display_cursor"]}
{"id": "C83", "title": "Sprites are shown at their place", "statement": "A sprite shows its characters row by row at its position minus its home position, mirrored in place and enlarged or reduced by its scale around the home position (each character as wide as the scale says, its dots sharing the width evenly); of overlapping sprites of a priority the one with the higher number is in front.", "quantifier": "every set of sprites and every pixel", "why_tests_cant": "All positions, sizes, scales, characters, mirrorings and overlaps.", "anchors": ["source/graphics/pc/sprite.c: add_sprite", "source/graphics/pc/display_pc.c: display_sprite"]}
{"id": "C84", "title": "The picture follows every change of the character and colour memory", "statement": "After every history of commands and frames the characters and colours shown are those in memory.", "quantifier": "every history of CHRSET, COLSET, CHRINIT, COLINIT, LOAD, POKE, MEMCOPY and frames", "why_tests_cant": "Histories of any length.", "anchors": ["source/graphics/pc/display_pc.c: init_display, display_draw_all", "source/subsystem/resources.c: regen_chr, regen_col"]}
{"id": "C85", "title": "A program does what its text says", "statement": "A program made of assignments, commands, PRINT, GOTO, GOSUB, RETURN, END, STOP, FOR, NEXT, ON…GOTO, ON…GOSUB, IF…THEN…ELSE, DATA, READ, RESTORE and DIM, with numbers, strings, variables and arrays of both kinds, operators, functions of up to three arguments and system variables in its expressions, written in any of the allowed ways and compiled, has exactly the effects of its text: when by its meaning it ends, the run ends, with the same error number, the same values of all variables and elements of arrays and the same effects on the rest of the system; and at each point before that the run comes to a state with those variables and effects.", "quantifier": "every program of these statements within the limits of the compiler, every way to write it, every behaviour of the commands, functions and system variables, every number of statements", "why_tests_cant": "All programs, all layouts of the text, runs of any length.", "anchors": ["source/interpreter/tokens.c: tokenize_full, tok_none, tok_prio, tok_eval, tok_test, tok_code", "source/interpreter/runner.c: run, iterate", "source/interpreter/operators.c", "source/interpreter/vars.c: get_var, get_new_arr_var, get_arr_entry", "source/interpreter/arrays.c", "source/interpreter/flow.c: cmd_for, cmd_next, cmd_goto_gosub, cmd_return, cmd_if, cmd_else", "source/interpreter/data.c: cmd_read, cmd_restore"]}
{"id": "C86", "title": "Programs that go on forever run forever, and only those", "statement": "A program that by its meaning never ends runs forever without meeting anything undefined; when a run ends, then by its meaning the program ends in the same way.", "quantifier": "every program as in C85, every number of steps", "why_tests_cant": "Runs without end.", "anchors": ["source/interpreter/runner.c: run, iterate", "source/interpreter/tokens.c: tokenize_full"]}
{"id": "C87", "title": "A statement means the same after THEN or ELSE as elsewhere", "statement": "Any statement that can stand on a line of its own can stand after THEN or ELSE, whatever stands in the other branch, and it means the same there.", "quantifier": "every pair of statements", "why_tests_cant": "All pairs of statements.", "anchors": ["source/interpreter/tokens.c: tok_eval (1046-1075)", "source/interpreter/flow.c: cmd_if"]}
{"id": "C88", "title": "Variables compiled by number and by name are the same", "statement": "Programs compiled with variable numbers (the launcher, ACLS, the editor) and programs compiled with variable names reach the same variable, array element or array for the same name.", "quantifier": "every name, every table of variables, every later state of the table", "why_tests_cant": "All names and all orders in which variables are created.", "anchors": ["source/interpreter/tokens.c: tok_code (836-865)", "source/interpreter/runner.c: BC_VARIABLE_ID, BC_VARIABLE_NAME (308-392)"]}
{"id": "C89", "title": "Sprite commands set exactly the attributes they name", "statement": "SPSET, SPCHR, SPHOME, SPCOL, SPCOLVEC, SPOFS, SPSCALE and SPANGLE change the attributes of the one sprite they name to the values given and nothing else, or report an error and change nothing; SPREAD and SPCHK report what was set.", "quantifier": "every state of the sprites, every argument", "why_tests_cant": "200 sprites with many attributes each, all values.", "anchors": ["source/subsystem/sprites.c: cmd_spset, cmd_spchr, cmd_sphome, cmd_spcol, cmd_spcolvec, cmd_spofs, cmd_spscale, cmd_spangle, cmd_spread, func_spchk"]}
{"id": "C90", "title": "A system variable reads the quantity its name says", "statement": "Reading the system variable called CSRY gives the row of the cursor, TCHX the column touched, and so on for all 33 names.", "quantifier": "every state of the system", "why_tests_cant": "All states.", "anchors": ["source/subsystem/sysvars.c", "source/interpreter/runner.c: ptc_sysvars", "source/interpreter/tokens.c: sysvars"]}
{"id": "C91", "title": "A written loop runs once for each value", "statement": "The program FOR v=a TO b STEP s : commands : NEXT, compiled and run, performs the commands once for each of the values a, a+s, a+2s, … that are not past b, in this order, with that value in the variable; then it ends, and the variable holds the first value past b. If already the first value is past b, the commands are not performed, the variable holds the first value, and the program goes on after NEXT.", "quantifier": "every variable, every first value, limit and step (any expressions that do not change during the loop), every list of commands, every number of rounds (also none), every spelling and layout of the text", "why_tests_cant": "Any number of rounds, all values and all bodies.", "anchors": ["source/interpreter/flow.c: cmd_for, cmd_next", "source/interpreter/runner.c: BC_BEGIN_LOOP (431-523)", "source/interpreter/tokens.c: tok_eval, tok_code"]}
{"id": "C92", "title": "The line editor shows the line", "statement": "While INPUT or LINPUT waits, the row of the cursor shows exactly the line that the keys pressed so far leave - characters inserted before the cursor while there are fewer than 32, BACKSPACE (or Y) and DEL removing the one before and after it, LEFT and RIGHT moving it - with the colours, the cursor in its place and all other rows unchanged; RETURN, A or BREAK, and nothing else, ends the editing.", "quantifier": "every sequence of rounds (any key, buttons, timing), every screen whose cursor row is empty, every row", "why_tests_cant": "Any number of keys in any order; lines of every length and cursor position.", "anchors": ["source/subsystem/console.c: shared_input (200-286)"]}
{"id": "C93", "title": "LINPUT stores what was typed", "statement": "LINPUT shows its prompt and a question mark, lets the user edit a line on the next row, and stores exactly the characters of the line in the string variable, whether they are in the 8-bit character set or not; after BREAK nothing is stored. Afterwards the cursor is at the beginning of the next, empty row.", "quantifier": "every prompt, every editing history, every kind of string pool, every cursor position", "why_tests_cant": "All texts, prompts and editing histories.", "anchors": ["source/subsystem/console.c: con_prompt (288), cmd_linput (423-471)"]}
{"id": "C94", "title": "INPUT stores the fields of the line", "statement": "INPUT asks again (\"?Redo from start\" and the prompt) until a line has exactly one field per variable and every field for a number is a number, and then stores in each variable the number or the characters that its field stands for; whatever is typed, a variable only gets a value of its kind.", "quantifier": "every list of variables, every number of refused lines, every line up to 31 characters, every prompt; for the kinds: every input whatsoever", "why_tests_cant": "All lines, all lists of variables, any number of retries.", "anchors": ["source/subsystem/console.c: cmd_input (303-421), con_reprompt (296)", "source/interpreter/strs.c: u8_to_num, is_number"]}
{"id": "C95", "title": "Typing on the touch screen", "statement": "However the keys of the panel are touched, one after the other, exactly the characters of the touched keys reach the keyboard buffer, in order, repeated after 30 frames and then every 5, as far as the buffer holds them; SHIFT counts for one character, CAPS until it is pressed again, the layout keys select letters, signs or katakana, function keys type their text, ESC stops the program, the page buttons move ICONPAGE between 0 and ICONPMAX, and nothing else changes.", "quantifier": "every sequence of touches (any dots of the screen, any durations and pauses), every state of the keyboard, every content of the buffer, every text of the function keys", "why_tests_cant": "All 49152 dots, all durations and all sequences of touches in all keyboard states.", "anchors": ["source/subsystem/panel.c: press_key (328-422), key_map (301-326), keyboard_chr (249-263), keyboard_pos (13-118), get_pressed_key (435)", "source/subsystem/input.c: set_inkey, check_repeat"]}
{"id": "C96", "title": "Panel text, function keys and icons", "statement": "PNLSTR writes its text into one row of the panel up to the edge and changes nothing else; KEY makes a function key type the given text and show its first characters; each of the four icon places shows what ICONSET or ICONCLR last said, and ICONCHK reports the touched place exactly in the frames in which a key would repeat, if it shows an icon.", "quantifier": "every text, place, colour, every history of ICONSET and ICONCLR, every duration of a touch", "why_tests_cant": "All texts and places, histories of any length.", "anchors": ["source/subsystem/panel.c: cmd_pnlstr (189), cmd_key (208), set_function_key (278), cmd_iconset (217), cmd_iconclr (226), func_iconchk (239), init_panel (120)"]}
{"id": "C97", "title": "PNLTYPE selects the panel", "statement": "PNLTYPE with OFF, PNL, KYA, KYM or KYK selects this panel, and the picture of the panel is that of the selected one; another name is reported; INPUT shows the keyboard and puts the panel back afterwards.", "quantifier": "every name, every state of the panel", "why_tests_cant": "All orders of PNLTYPE and INPUT.", "anchors": ["source/subsystem/panel.c: cmd_pnltype (165), set_panel_bg (265)", "source/subsystem/console.c: shared_input (213-217, 283)"]}
{"id": "C98", "title": "Mathematical functions agree with the real functions", "statement": "SIN, COS, TAN, ATAN (with one and with two arguments), SQR, EXP give the value of the real function rounded down to 12 binary places, LOG rounds it to the nearest, POW gives it to single precision; arguments outside the domain and results outside the range of numbers are reported as errors.", "quantifier": "every argument of 32 bits (for POW: every pair), every C library accurate to 2^-40 (2^-22 for powf)", "why_tests_cant": "2^32 arguments (2^64 for ATAN and POW), and no oracle but the real functions.", "anchors": ["source/interpreter/mathptc.c: func_log_internal (47), func_log (51), func_atan_internal (64), func_atan2_internal (69), func_pow (74), func_sin_internal (115), func_cos_internal (121), func_tan_internal (126), func_atan (151), func_sqr_internal (185), func_exp_internal (190)"]}
{"id": "C99", "title": "Memory for compiled programs", "statement": "The code of a program fits into the memory reserved for it: programs up to the largest size give at most as much code as there is room for, and the tables of lines and labels calculated for a program have an entry for each of its lines and labels.", "quantifier": "every program text of any length, all options of the compiler, all contents of the tables", "why_tests_cant": "All texts; the writes are not checked at run time, so that a test sees an overflow only if it happens to crash.", "anchors": ["source/interpreter/program.c: init_bytecode (22), init_bytecode_size (37), calc_min_bytecode (57)", "source/interpreter/tokens.c: tok_code (740), tokenize_full (230), tok_convert (301)", "source/system.c: launch_system (325-353), launcher (274)"]}
{"id": "C100", "title": "The touch variables follow the pen", "statement": "After every sequence of frames TCHST tells whether the screen is touched, TCHX and TCHY are the place where it was touched for the last time, and TCHTIME is the number of frames for which it has been touched without interruption; with the mouse of the PC version the place is the point of the lower screen under the mouse.", "quantifier": "every history of frames, every place, every window size", "why_tests_cant": "Histories of any length (the counter leaves the range of numbers only after hours), all window sizes and mouse places.", "anchors": ["source/subsystem/input.c: set_touch (96)", "source/subsystem/sysvars.c: sys_tchst, sys_tchtime, sys_tchx, sys_tchy (111-150)", "source/main.c: frame_update (84), main (294-306)"]}
{"id": "C101", "title": "ACLS stands for its commands and leaves the program alone", "statement": "ACLS does exactly what the documented sequence of commands (VISIBLE, ICONCLR, COLOR, CLS, GDRAWMD, and for both pages GPAGE, GCOLOR, GCLS, GPRIO, BGPAGE, BGOFS, BGCLR, BGCLIP, SPPAGE, SPCLR, COLINIT) does, and afterwards the variables, subroutines and loops of the program that uses it are as they were.", "quantifier": "every state of the system, every set of variables, every call stack, every behaviour of the commands (including errors)", "why_tests_cant": "The command compiles and runs a program inside the running program, with the call stack of that program and a swapped table of variables; it must work from every state.", "anchors": ["source/system.c: acls_code (74), cmd_acls (90)", "source/interpreter/runner.c: _run (172), run (563)"]}
{"id": "C102", "title": "Each line typed at the prompt is executed once", "statement": "The lines executed in direct mode are the lines that were typed, in the order in which they were typed and each exactly once; every line has room; the editor can be reached.", "quantifier": "every session: all interleavings of typing, running programs, SELECT and closing the window", "why_tests_cant": "Histories of any length with events from another thread at any moment.", "anchors": ["source/system.c: token_and_run (313), launch_system (325-480)", "source/subsystem/input.c: set_input (42-47)", "source/subsystem/panel.c: press_key (413)"]}
{"id": "C103", "title": "SELECT stops the program and closing the window ends the system", "statement": "Whenever SELECT is pressed while a program runs, the program stops after the current instruction and the prompt appears; whenever the window is closed, the program thread comes to its end without executing anything more.", "quantifier": "every moment of every session (every schedule of the two threads)", "why_tests_cant": "The events come from another thread; a test sees one schedule, and the requests are lost only at some moments.", "anchors": ["source/main.c: main (316-319)", "source/subsystem/input.c: set_input (42-47)", "source/system.c: launch_system (367-477)", "source/interpreter/runner.c: _run (184)"]}
{"id": "C104", "title": "Every error is reported with its own message", "statement": "Every error number has a message, different from all others, and the message with the name of the label fits the buffer of the main loop.", "quantifier": "every error number, every additional text", "why_tests_cant": "Tests reach only few of the errors with few labels.", "anchors": ["source/error.c: error_messages", "source/system.c: launch_system (326, 460-469)", "source/interpreter/label.c: search_label (104-130)"]}
{"id": "C105", "title": "Programs show the picture that they describe", "statement": "A program that uses PRINT of numbers and strings, LOCATE, COLOR, CLS, GPSET, GFILL, GBOX (not in XOR mode), GLINE (horizontal, vertical or diagonal), GCLS, GCOLOR, GDRAWMD and GPAGE together with loops, conditions, subroutines, variables strings (concatenation, repetition, comparison, ASC, CHR$, INSTR, LEFT$, LEN, MID$, RIGHT$, STR$, VAL) and what it reads back with CHKCHR, GSPOIT, CSRX and CSRY, leaves exactly the picture on the text screen and on the graphics pages, the values of the variables and the error number that its statements describe one after the other. Corners of GFILL and GBOX left of or above the screen and colours of COLOR outside 0 to 15 are excepted; C25 to C28 treat them.", "quantifier": "every correct program text of the described part of the language, every number of statements, every first picture", "why_tests_cant": "Programs and pictures are unbounded; a test compares one program with one picture.", "anchors": ["source/interpreter/runner.c: tables (57-113), _run (172-540)", "source/subsystem/console.c: cmd_print (109), cmd_locate, cmd_color, cmd_cls, func_chkchr, sys_csrx", "source/subsystem/graphics.c: cmd_gpset, cmd_gfill, cmd_gbox, cmd_gline, cmd_gcls, cmd_gcolor, cmd_gdrawmd, cmd_gpage, func_gspoit", "source/interpreter/tokens.c", "source/interpreter/operators.c: op_add, op_mult, op_assign, op_equal, op_less", "source/interpreter/strfuncs.c"]}
{"id": "C106", "title": "Named data and CLEAR", "statement": "For a BASIC program every name (with its kind: number or string, variable or array) has a value or a table of its own: what is stored under one name is never seen under another, arrays used without DIM have 10 (or 10 by 10) elements, and CLEAR makes every variable 0 or empty and every array unused, after which the program sees what a new program would see.", "quantifier": "every history of reads, writes, DIM, element accesses and CLEAR, every name, every number of names and words", "why_tests_cant": "Histories are unbounded, and names share a hash table and one block of words; a test sees a few names.", "anchors": ["source/interpreter/vars.c: reset_var (27), search_name_type (65), get_new_arr_var (83), get_var (117), get_arr_entry_via_ptr (153)", "source/interpreter/arrays.c: reset_arr (18), get_init_new_arr (28)", "source/subsystem/variables.c: cmd_clear (3), cmd_dim", "source/interpreter/strs.c: reset_str (118)"]}
{"id": "C107", "title": "CHRINIT and COLINIT restore the initial contents", "statement": "CHRINIT with any valid name of a character resource gives that resource the contents it had at startup (the shipped file with its letters and bank), changes nothing else and has its picture made again; without the file or for another kind of resource it is an error. COLINIT restores all six palettes, with a name the palette of the current page, with a colour number that colour; nothing else changes.", "quantifier": "every resource name, every current page, every contents of resources and files", "why_tests_cant": "Contents of resources and files are unbounded, and names combine kinds, banks and pages.", "anchors": ["source/subsystem/resources.c: init_col (425), init_resource (433), cmd_chrinit (872), cmd_colinit (983), check_load_file (333)"]}
{"id": "C108", "title": "Memory blocks of the interpreter are separate", "statement": "When the interpreter runs on its own memory block, every request for memory within the 8 MB gets a block of its own inside it: the blocks never overlap, a zeroed request is zero, and what is written into one block stays there until it is overwritten through the same block or the whole memory is reset, whatever is requested, freed or written elsewhere.", "quantifier": "every history of requests, zeroed requests, frees, writes, reads and resets of every size whose total fits the block", "why_tests_cant": "Histories and sizes are unbounded; a test sees a few requests.", "anchors": ["source/extension/sbc_blockalloc.c: init_memory, reset_memory, sbc_malloc, sbc_calloc, sbc_free", "source/system.c: init_system (24), launch_system (325)", "source/interpreter/strs.c: init_mem_str (95)"]}
{"id": "C109", "title": "GCIRCLE draws a circle", "statement": "GCIRCLE x,y,r (with or without a colour) draws a closed circle of radius r around (x,y): every dot it draws lies close to the ideal circle, every point of the ideal circle is close to a drawn dot, nothing else on any page changes, and for no centre and radius is anything outside the page touched.", "quantifier": "every centre, every radius, every colour, every page, every C library accurate to 40 binary digits", "why_tests_cant": "Centres and radii range over a million values each, and the positions come from floating point sines and cosines.", "anchors": ["source/subsystem/graphics.c: cmd_gcircle (424), draw_line (128)", "source/subsystem/graphics.h: grp_pixel, grp_index"]}
{"id": "C110", "title": "FILES lists the files", "statement": "FILES prints on the console, one per line and in the order of the directory, the name of every file that BASIC can use (1 to 8 characters before the dot), and nothing else, whatever other files the directory holds; with a type it lists the files of that type.", "quantifier": "every directory (any number of files, any names), every state of the console", "why_tests_cant": "Directories hold any number of files with any names; a test tries a few directories.", "anchors": ["source/system.c: cmd_files (171)", "source/subsystem/console.c: con_puts (72), con_newline"]}
