import Verif.Model.Tokens
set_option autoImplicit false
/-!
# Signature tables (`source/interpreter/tokens.c:75-147`)

Generated from the source text; every entry is the list of the character codes of the C string in the comment.
-/
namespace Sbc.Tok

/-- `cmd_format` (`tokens.c:92-120`). -/
def cmdFormat : List (List Nat) := [
  [42] /- 0 PRINT "*" -/,
  [78, 78] /- 1 LOCATE "NN" -/,
  [78, 44, 78, 78] /- 2 COLOR "N,NN" -/,
  [42] /- 3 DIM "*" -/,
  [42] /- 4 FOR "*" -/,
  [42] /- 5 TO "*" -/,
  [42] /- 6 STEP "*" -/,
  [48, 44, 110] /- 7 NEXT "0,n" -/,
  [78] /- 8 IF "N" -/,
  [42] /- 9 THEN "*" -/,
  [42] /- 10 ELSE "*" -/,
  [42] /- 11 [ENDIF] "*" -/,
  [76, 44, 108] /- 12 GOTO "L,l" -/,
  [76, 44, 108] /- 13 GOSUB "L,l" -/,
  [78] /- 14 ON "N" -/,
  [48] /- 15 RETURN "0" -/,
  [48] /- 16 END "0" -/,
  [48] /- 17 STOP "0" -/,
  [48] /- 18 CLS "0" -/,
  [42] /- 19 VISIBLE "*" -/,
  [48] /- 20 ACLS "0" -/,
  [78] /- 21 VSYNC "N" -/,
  [78] /- 22 WAIT "N" -/,
  [118, 44, 83, 59, 118] /- 23 INPUT "v,S;v" -/,
  [115, 44, 83, 59, 115] /- 24 LINPUT "s,S;s" -/,
  [83] /- 25 APPEND "S" -/,
  [48, 44, 78, 44, 78, 78, 44, 78, 78, 78, 44, 78, 78, 78, 78] /- 26 BEEP "0,N,NN,NNN,NNNN" -/,
  [78, 78, 78, 78] /- 27 BGCLIP "NNNN" -/,
  [48, 44, 78] /- 28 BGCLR "0,N" -/,
  [78, 78, 78, 78, 78, 78, 78] /- 29 BGCOPY "NNNNNNN" -/,
  [78, 78, 78, 78, 78, 78, 44, 78, 78, 78, 78, 78, 83, 44, 78, 78, 78, 78, 78, 78, 78, 78, 78] /- 30 BGFILL "NNNNNN,NNNNNS,NNNNNNNNN" -/,
  [48, 44, 78] /- 31 BGMCLEAR "0,N" -/,
  [78, 44, 83, 44, 78, 78, 44, 83, 83, 44, 78, 78, 78, 44, 83, 83, 83, 44, 83, 83, 83, 83, 44, 83, 83, 83, 83, 83, 44, 83, 83, 83, 83, 83, 83, 44, 83, 83, 83, 83, 83, 83, 83, 44, 83, 83, 83, 83, 83, 83, 83, 83, 44, 83, 83, 83, 83, 83, 83, 83, 83, 83] /- 32 BGMPLAY "N,S,NN,SS,NNN,SSS,SSSS,SSSSS,SSSSSS,SSSSSSS,SSSSSSSS,SSSSSSSSS" -/,
  [78, 83, 44, 78, 78, 83, 44, 78, 78, 78, 78, 78, 83, 44, 78, 78, 78, 78, 78, 78, 83] /- 33 BGMPRG "NS,NNS,NNNNNS,NNNNNNS" -/,
  [78, 83, 44, 78, 83, 83, 44, 78, 83, 83, 83, 44, 78, 83, 83, 83, 83, 44, 78, 83, 83, 83, 83, 83, 44, 78, 83, 83, 83, 83, 83, 83, 44, 78, 83, 83, 83, 83, 83, 83, 83, 44, 78, 83, 83, 83, 83, 83, 83, 83, 83, 44, 78, 83, 83, 83, 83, 83, 83, 83, 83, 44, 78, 83, 83, 83, 83, 83, 83, 83, 83, 83] /- 34 BGMSET "NS,NSS,NSSS,NSSSS,NSSSSS,NSSSSSS,NSSSSSSS,NSSSSSSSS,NSSSSSSSS,NSSSSSSSSS" -/,
  [78, 76] /- 35 BGMSETD "NL" -/,
  [78, 78, 78] /- 36 BGMSETV "NNN" -/,
  [48, 44, 78, 44, 78, 78] /- 37 BGMSTOP "0,N,NN" -/,
  [78, 44, 78, 78] /- 38 BGMVOL "N,NN" -/,
  [78, 78, 78, 44, 78, 78, 78, 78] /- 39 BGOFS "NNN,NNNN" -/,
  [78] /- 40 BGPAGE "N" -/,
  [78, 78, 78, 78, 44, 78, 78, 78, 83, 44, 78, 78, 78, 78, 78, 78, 78] /- 41 BGPUT "NNNN,NNNS,NNNNNNN" -/,
  [78, 78, 78, 110, 44, 78, 78, 78, 115, 44, 78, 78, 78, 110, 110, 110, 110] /- 42 BGREAD "NNNn,NNNs,NNNnnnn" -/,
  [78, 44, 78, 78, 78] /- 43 BREPEAT "N,NNN" -/,
  [83] /- 44 CHRINIT "S" -/,
  [83, 78, 115] /- 45 CHRREAD "SNs" -/,
  [83, 78, 83] /- 46 CHRSET "SNS" -/,
  [48] /- 47 CLEAR "0" -/,
  [48, 44, 83, 44, 83, 78] /- 48 COLINIT "0,S,SN" -/,
  [83, 78, 110, 110, 110] /- 49 COLREAD "SNnnn" -/,
  [83, 78, 83] /- 50 COLSET "SNS" -/,
  [48] /- 51 CONT "0" -/,
  [42] /- 52 DATA "*" -/,
  [83] /- 53 DELETE "S" -/,
  [83, 110, 110, 110] /- 54 DTREAD "Snnn" -/,
  [83] /- 55 EXEC "S" -/,
  [48, 44, 83, 44, 83, 83, 44, 83, 83, 83, 44, 83, 83, 83, 83, 44, 83, 83, 83, 83, 83] /- 56 FILES "0,S,SS,SSS,SSSS,SSSSS" -/,
  [78, 78, 78, 78, 44, 78, 78, 78, 78, 78] /- 57 GBOX "NNNN,NNNNN" -/,
  [78, 78, 78, 44, 78, 78, 78, 78, 44, 78, 78, 78, 78, 78, 78] /- 58 GCIRCLE "NNN,NNNN,NNNNNN" -/,
  [48, 44, 78] /- 59 GCLS "0,N" -/,
  [78] /- 60 GCOLOR "N" -/,
  [78, 78, 78, 78, 78, 78, 78, 44, 78, 78, 78, 78, 78, 78, 78, 78] /- 61 GCOPY "NNNNNNN,NNNNNNNN" -/,
  [78] /- 62 GDRAWMD "N" -/,
  [78, 78, 78, 78, 44, 78, 78, 78, 78, 78] /- 63 GFILL "NNNN,NNNNN" -/,
  [78, 78, 78, 78, 44, 78, 78, 78, 78, 78] /- 64 GLINE "NNNN,NNNNN" -/,
  [78, 44, 78, 78, 78] /- 65 GPAGE "N,NNN" -/,
  [78, 78, 44, 78, 78, 78, 44, 78, 78, 78, 78] /- 66 GPAINT "NN,NNN,NNNN" -/,
  [78, 78, 44, 78, 78, 78] /- 67 GPSET "NN,NNN" -/,
  [78] /- 68 GPRIO "N" -/,
  [78, 78, 83, 78, 78, 78] /- 69 GPUTCHR "NNSNNN" -/,
  [48, 44, 78] /- 70 ICONCLR "0,N" -/,
  [78, 78] /- 71 ICONSET "NN" -/,
  [78, 83] /- 72 KEY "NS" -/,
  [] /- 73 LIST "" -/,
  [83, 44, 83, 78] /- 74 LOAD "S,SN" -/,
  [48] /- 75 NEW "0" -/,
  [78, 78, 83, 44, 78, 78, 83, 78] /- 76 PNLSTR "NNS,NNSN" -/,
  [83] /- 77 PNLTYPE "S" -/,
  [118] /- 78 READ "v" -/,
  [] /- 79 REBOOT "" -/,
  [] /- 80 RECVFILE "" -/,
  [83, 83] /- 81 RENAME "SS" -/,
  [76] /- 82 RESTORE "L" -/,
  [78, 78, 97] /- 83 RSORT "NNa" -/,
  [48] /- 84 RUN "0" -/,
  [83] /- 85 SAVE "S" -/,
  [] /- 86 SENDFILE "" -/,
  [78, 78, 97] /- 87 SORT "NNa" -/,
  [78, 78, 44, 78, 78, 78, 44, 78, 78, 78, 78] /- 88 SPANGLE "NN,NNN,NNNN" -/,
  [78, 78, 78, 44, 78, 78, 78, 78] /- 89 SPANIM "NNN,NNNN" -/,
  [78, 78, 44, 78, 78, 78, 78, 78, 78] /- 90 SPCHR "NN,NNNNNN" -/,
  [48, 44, 78] /- 91 SPCLR "0,N" -/,
  [78, 78, 78, 78, 78, 78, 44, 78, 78, 78, 78, 78, 78, 78] /- 92 SPCOL "NNNNNN,NNNNNNN" -/,
  [78, 78, 78] /- 93 SPCOLVEC "NNN" -/,
  [78, 78, 78] /- 94 SPHOME "NNN" -/,
  [78, 78, 78, 44, 78, 78, 78, 78] /- 95 SPOFS "NNN,NNNN" -/,
  [78] /- 96 SPPAGE "N" -/,
  [78, 78, 44, 78, 78, 78, 44, 78, 78, 78, 78, 44, 78, 78, 78, 78, 78, 44, 78, 78, 78, 78, 78, 78] /- 97 SPREAD "NN,NNN,NNNN,NNNNN,NNNNNN" -/,
  [78, 78, 44, 78, 78, 78] /- 98 SPSCALE "NN,NNN" -/,
  [78, 78, 78, 78, 78, 78, 44, 78, 78, 78, 78, 78, 78, 78, 78] /- 99 SPSET "NNNNNN,NNNNNNNN" -/,
  [78, 78, 78] /- 100 SPSETV "NNN" -/,
  [110, 110, 44, 115, 115] /- 101 SWAP "nn,ss" -/,
  [83, 110, 110, 110] /- 102 TMREAD "Snnn" -/,
  [83] /- 103 TALK "S" -/,
  [48] /- 104 TALKSTOP "0" -/,
  [78, 78] /- 105 POKE "NN" -/,
  [78, 78] /- 106 POKEH "NN" -/,
  [78, 78] /- 107 POKEB "NN" -/,
  [78, 78, 78] /- 108 MEMCOPY "NNN" -/,
  [78, 78, 78] /- 109 MEMFILL "NNN" -/]

/-- `func_format` (`tokens.c:122-130`). -/
def funcFormat : List (List Nat) := [
  [78] /- 0 ABS "N" -/,
  [83] /- 1 ASC "S" -/,
  [78, 44, 78, 78] /- 2 ATAN "N,NN" -/,
  [78] /- 3 BGCHK "N" -/,
  [48, 44, 78] /- 4 BGMCHK "0,N" -/,
  [78, 78] /- 5 BGMGETV "NN" -/,
  [48] /- 6 BTRIG "0" -/,
  [48, 44, 78] /- 7 BUTTON "0,N" -/,
  [78, 78] /- 8 CHKCHR "NN" -/,
  [78] /- 9 CHR$ "N" -/,
  [78] /- 10 COS "N" -/,
  [78] /- 11 DEG "N" -/,
  [] /- 12 EXP "" -/,
  [78] /- 13 FLOOR "N" -/,
  [78, 78, 44, 78, 78, 78] /- 14 GSPOIT "NN,NNN" -/,
  [78, 44, 78, 78] /- 15 HEX$ "N,NN" -/,
  [48] /- 16 ICONCHK "0" -/,
  [48] /- 17 INKEY$ "0" -/,
  [83, 83, 44, 83, 83, 78] /- 18 INSTR "SS,SSN" -/,
  [83, 78] /- 19 LEFT$ "SN" -/,
  [83] /- 20 LEN "S" -/,
  [78] /- 21 LOG "N" -/,
  [83, 78, 78] /- 22 MID$ "SNN" -/,
  [48] /- 23 PI "0" -/,
  [78, 78] /- 24 POW "NN" -/,
  [78] /- 25 RAD "N" -/,
  [83, 78] /- 26 RIGHT$ "SN" -/,
  [78] /- 27 RND "N" -/,
  [78] /- 28 SGN "N" -/,
  [78] /- 29 SIN "N" -/,
  [78] /- 30 SPCHK "N" -/,
  [78, 78] /- 31 SPGETV "NN" -/,
  [78, 44, 78, 78] /- 32 SPHIT "N,NN" -/,
  [] /- 33 SPHITRC "" -/,
  [78, 78] /- 34 SPHITSP "NN" -/,
  [78] /- 35 SQR "N" -/,
  [78] /- 36 STR$ "N" -/,
  [83, 78, 78, 83] /- 37 SUBST$ "SNNS" -/,
  [] /- 38 TAN "" -/,
  [83] /- 39 VAL "S" -/,
  [48] /- 40 TALKCHK "0" -/,
  [78] /- 41 PEEK "N" -/,
  [78] /- 42 PEEKH "N" -/,
  [78] /- 43 PEEKB "N" -/,
  [83, 44, 83, 78] /- 44 ADDR "S,SN" -/,
  [78] /- 45 PTR$ "N" -/]

/-- `func_return` (`tokens.c:132-138`): "NNNNNNNNNSNNNNNSNSNSNNSNNNSNNNNNNNNNSSNNNNNNNS". -/
def funcReturn : List Nat :=
  [78, 78, 78, 78, 78, 78, 78, 78, 78, 83, 78, 78, 78, 78, 78, 83, 78, 83, 78, 83, 78, 78, 83, 78, 78, 78, 83, 78, 78, 78, 78, 78, 78, 78, 78, 78, 83, 83, 78, 78, 78, 78, 78, 78, 78, 83]

/-- `op_format` (`tokens.c:140-147`). -/
def opFormat : List (List Nat) := [
  [78, 78, 44, 83, 83] /- 0 + "NN,SS" -/,
  [42] /- 1 , "*" -/,
  [78, 78] /- 2 - "NN" -/,
  [78, 78, 44, 83, 78] /- 3 * "NN,SN" -/,
  [78, 78] /- 4 / "NN" -/,
  [42] /- 5 ; "*" -/,
  [110, 78, 44, 115, 83] /- 6 = "nN,sS" -/,
  [78] /- 7 (-) "N" -/,
  [78, 78, 44, 83, 83] /- 8 == "NN,SS" -/,
  [78, 78, 44, 83, 83] /- 9 != "NN,SS" -/,
  [78, 78, 44, 83, 83] /- 10 < "NN,SS" -/,
  [78, 78, 44, 83, 83] /- 11 > "NN,SS" -/,
  [78, 78, 44, 83, 83] /- 12 <= "NN,SS" -/,
  [78, 78, 44, 83, 83] /- 13 >= "NN,SS" -/,
  [78, 78] /- 14 % "NN" -/,
  [78, 78] /- 15 AND "NN" -/,
  [78, 78] /- 16 OR "NN" -/,
  [78, 78] /- 17 XOR "NN" -/,
  [78] /- 18 NOT "N" -/,
  [78] /- 19 ! "N" -/,
  [42] /- 20 ( "*" -/,
  [42] /- 21 ) "*" -/,
  [42] /- 22 [ "*" -/,
  [42] /- 23 ] "*" -/]

end Sbc.Tok
