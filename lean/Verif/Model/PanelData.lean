set_option autoImplicit false
/-!
# Tables of the panel (`panel.c:13-118, 249-263, 301-326`), copied from the source
-/
namespace Sbc.Panel

/-- Column 5 (key code) of `keyboard_pos` (`panel.c:13-118`). -/
def keyCodes : List Nat :=
  [1, 2, 3, 4, 5, 6, 7, 8, 9, 10, 11, 12, 13, 14, 15, 16, 17, 18, 19, 20, 21, 22, 23, 24, 25, 26, 27, 28, 29, 30, 31,
   32, 33, 34, 35, 36, 37, 38, 39, 40, 41, 42, 43, 44, 45, 46, 47, 48, 49, 50, 51, 52, 53, 54, 55, 56, 57, 58, 59, 60,
   61, 62, 63, 64, 65, 65, 65, 65, 65, 65, 66, 67, 68, 101, 101, 102, 102, 103, 103, 104, 104, 105, 105, 106, 70, 71,
   71, 72, 72, 80, 81, 90, 91, 92, 93]

/-- Column 4 (`chr`) of `keyboard_pos`; -1 means that the key is not shown at first. -/
def keyChrs : List Int :=
  [280, 384, 386, 388, 390, 392, 394, 396, 398, 400, 402, 404, 406, 408, 276, 410, 412, 414, 416, 418, 420, 422, 424,
   426, 428, 430, 432, 434, 436, 438, 440, 284, 442, 444, 446, 448, 450, 452, 454, 456, 458, 460, 462, 464, 466, 468,
   296, 470, 472, 474, 476, 478, 480, 482, 484, 486, 488, 490, 492, 300, 313, 508, 509, 510, 496, 495, 495, 495, 495,
   494, 309, 310, 311, 505, 499, 504, 499, 503, 499, 502, 499, 501, 499, 315, 304, 256, 260, 262, 264, -1, -1, -1, -1,
   -1, -1]

/-- The strings of `keyboard_chr` (`panel.c:249-263`) as bytes. -/
def keyboardChr : List (List Nat) := [
  [0, 0, 49, 50, 51, 52, 53, 54, 55, 56, 57, 48, 45, 43, 61, 0, 36, 34, 81, 87, 69, 82, 84, 89, 85, 73, 79, 80, 64,
   42, 40, 41, 9, 33, 65, 83, 68, 70, 71, 72, 74, 75, 76, 59, 58, 60, 62, 0, 39, 90, 88, 67, 86, 66, 78, 77, 44, 46,
   47, 37, 13, 0, 0, 0, 0, 32, 0, 0, 0],
  [0, 0, 0, 0, 35, 0, 0, 38, 0, 94, 92, 126, 0, 127, 124, 0, 0, 0, 113, 119, 101, 114, 116, 121, 117, 105, 111, 112,
   96, 0, 91, 93, 9, 0, 97, 115, 100, 102, 103, 104, 106, 107, 108, 0, 0, 123, 125, 0, 0, 122, 120, 99, 118, 98, 110,
   109, 0, 0, 63, 95, 13, 0, 0, 0, 0, 32, 0, 0, 0],
  [0, 0, 241, 242, 240, 243, 10, 229, 26, 228, 230, 231, 16, 7, 20, 0, 3, 150, 152, 145, 153, 236, 238, 239, 237, 14,
   15, 5, 6, 4, 11, 27, 9, 149, 146, 147, 148, 21, 23, 22, 244, 246, 247, 245, 235, 234, 232, 0, 255, 154, 144, 155,
   252, 253, 254, 151, 156, 157, 158, 159, 13, 0, 0, 0, 0, 32, 0, 0, 0],
  [0, 0, 0, 128, 0, 0, 0, 225, 0, 224, 226, 227, 17, 8, 0, 0, 0, 0, 248, 30, 250, 1, 2, 24, 25, 12, 18, 19, 0, 0, 233,
   0, 9, 0, 29, 0, 28, 0, 129, 130, 131, 132, 133, 134, 135, 0, 0, 0, 0, 249, 31, 251, 136, 137, 138, 139, 140, 141,
   142, 143, 13, 0, 0, 0, 0, 32, 0, 0, 0],
  [0, 0, 177, 178, 179, 180, 181, 197, 198, 199, 200, 201, 45, 43, 61, 0, 160, 165, 182, 183, 184, 185, 186, 202, 203,
   204, 205, 206, 162, 163, 221, 161, 9, 187, 188, 189, 190, 191, 207, 208, 209, 210, 211, 212, 213, 214, 164, 0, 192,
   193, 194, 195, 196, 215, 216, 217, 218, 219, 220, 166, 13, 0, 0, 0, 0, 32, 0, 0, 0],
  [0, 32, 0, 32, 167, 0, 168, 0, 169, 0, 170, 0, 171, 0, 0, 32, 0, 32, 0, 32, 0, 32, 0, 32, 202, 223, 203, 223, 204,
   223, 0, 32, 175, 0, 179, 222, 182, 222, 183, 222, 184, 222, 185, 222, 186, 222, 202, 222, 203, 222, 204, 222, 205,
   222, 206, 222, 205, 223, 206, 223, 0, 32, 0, 32, 9, 0, 187, 222, 188, 222, 189, 222, 190, 222, 191, 222, 49, 0, 50,
   0, 51, 0, 52, 0, 53, 0, 172, 0, 173, 0, 174, 0, 0, 32, 0, 32, 192, 222, 193, 222, 194, 222, 195, 222, 196, 222, 54,
   0, 55, 0, 56, 0, 57, 0, 48, 0, 0, 32, 0, 32, 13, 0, 0, 32, 0, 32, 0, 32, 0, 32, 32, 0, 0, 32, 0, 32, 0, 32]]

/-- `key_map` (`panel.c:301-326`): 24 rows of 32 bytes; 255 is no key. -/
def keyMap : List (List Nat) := [
  [73, 73, 74, 74, 74, 74, 75, 75, 76, 76, 76, 76, 77, 77, 78, 78, 78, 78, 79, 79, 80, 80, 80, 80, 81, 81, 82, 82, 82,
   82, 83, 83],
  [73, 73, 74, 74, 74, 74, 75, 75, 76, 76, 76, 76, 77, 77, 78, 78, 78, 78, 79, 79, 80, 80, 80, 80, 81, 81, 82, 82, 82,
   82, 83, 83],
  [255, 255, 255, 255, 255, 255, 255, 255, 255, 255, 255, 255, 255, 255, 255, 255, 255, 255, 255, 255, 255, 255, 255,
   255, 255, 255, 255, 255, 255, 255, 255, 255],
  [255, 255, 255, 255, 255, 255, 255, 255, 255, 255, 255, 255, 255, 255, 255, 255, 255, 255, 255, 255, 255, 255, 255,
   255, 255, 255, 255, 255, 255, 255, 255, 255],
  [255, 255, 255, 255, 255, 255, 255, 255, 255, 255, 255, 255, 255, 255, 255, 255, 255, 255, 255, 255, 255, 255, 255,
   255, 255, 255, 255, 255, 255, 255, 255, 255],
  [255, 255, 255, 255, 255, 255, 255, 255, 255, 255, 255, 255, 255, 255, 255, 255, 255, 255, 255, 255, 255, 255, 255,
   255, 255, 255, 255, 255, 255, 255, 255, 255],
  [0, 0, 0, 1, 1, 2, 2, 3, 3, 4, 4, 5, 5, 6, 6, 7, 7, 8, 8, 9, 9, 10, 10, 11, 11, 12, 12, 13, 13, 14, 14, 14],
  [0, 0, 0, 1, 1, 2, 2, 3, 3, 4, 4, 5, 5, 6, 6, 7, 7, 8, 8, 9, 9, 10, 10, 11, 11, 12, 12, 13, 13, 14, 14, 14],
  [0, 0, 0, 1, 1, 2, 2, 3, 3, 4, 4, 5, 5, 6, 6, 7, 7, 8, 8, 9, 9, 10, 10, 11, 11, 12, 12, 13, 13, 14, 14, 14],
  [15, 15, 16, 16, 17, 17, 18, 18, 19, 19, 20, 20, 21, 21, 22, 22, 23, 23, 24, 24, 25, 25, 26, 26, 27, 27, 28, 28, 29,
   29, 30, 30],
  [15, 15, 16, 16, 17, 17, 18, 18, 19, 19, 20, 20, 21, 21, 22, 22, 23, 23, 24, 24, 25, 25, 26, 26, 27, 27, 28, 28, 29,
   29, 30, 30],
  [15, 15, 16, 16, 17, 17, 18, 18, 19, 19, 20, 20, 21, 21, 22, 22, 23, 23, 24, 24, 25, 25, 26, 26, 27, 27, 28, 28, 29,
   29, 30, 30],
  [31, 31, 31, 32, 32, 33, 33, 34, 34, 35, 35, 36, 36, 37, 37, 38, 38, 39, 39, 40, 40, 41, 41, 42, 42, 43, 43, 44, 44,
   45, 45, 255],
  [31, 31, 31, 32, 32, 33, 33, 34, 34, 35, 35, 36, 36, 37, 37, 38, 38, 39, 39, 40, 40, 41, 41, 42, 42, 43, 43, 44, 44,
   45, 45, 255],
  [31, 31, 31, 32, 32, 33, 33, 34, 34, 35, 35, 36, 36, 37, 37, 38, 38, 39, 39, 40, 40, 41, 41, 42, 42, 43, 43, 44, 44,
   45, 45, 255],
  [46, 46, 46, 46, 47, 47, 48, 48, 49, 49, 50, 50, 51, 51, 52, 52, 53, 53, 54, 54, 55, 55, 56, 56, 57, 57, 58, 58, 59,
   59, 59, 59],
  [46, 46, 46, 46, 47, 47, 48, 48, 49, 49, 50, 50, 51, 51, 52, 52, 53, 53, 54, 54, 55, 55, 56, 56, 57, 57, 58, 58, 59,
   59, 59, 59],
  [46, 46, 46, 46, 47, 47, 48, 48, 49, 49, 50, 50, 51, 51, 52, 52, 53, 53, 54, 54, 55, 55, 56, 56, 57, 57, 58, 58, 59,
   59, 59, 59],
  [60, 60, 255, 61, 61, 62, 62, 63, 63, 255, 64, 64, 64, 64, 65, 65, 66, 66, 67, 67, 68, 68, 69, 69, 255, 70, 70, 71,
   71, 255, 72, 72],
  [60, 60, 255, 61, 61, 62, 62, 63, 63, 255, 64, 64, 64, 64, 65, 65, 66, 66, 67, 67, 68, 68, 69, 69, 255, 70, 70, 71,
   71, 255, 72, 72],
  [255, 255, 255, 255, 255, 255, 255, 255, 255, 255, 255, 255, 255, 255, 255, 255, 255, 255, 255, 255, 255, 255, 255,
   255, 255, 255, 255, 255, 255, 255, 255, 255],
  [84, 84, 84, 84, 255, 85, 85, 85, 85, 86, 86, 87, 87, 88, 88, 88, 88, 255, 89, 89, 91, 91, 91, 92, 92, 92, 93, 93,
   93, 94, 94, 94],
  [84, 84, 84, 84, 255, 85, 85, 85, 85, 86, 86, 87, 87, 88, 88, 88, 88, 255, 89, 89, 91, 91, 91, 92, 92, 92, 93, 93,
   93, 94, 94, 94],
  [84, 84, 84, 84, 255, 85, 85, 85, 85, 86, 86, 87, 87, 88, 88, 88, 88, 255, 89, 89, 91, 91, 91, 92, 92, 92, 93, 93,
   93, 94, 94, 94]]

end Sbc.Panel
