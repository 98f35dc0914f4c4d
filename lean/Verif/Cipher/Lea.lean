import Verif.Cipher.Rounds

/-!
# lea.cpp

The statements of the key schedule and of the two transformations are transcribed line by line as data; `KeyOp.run`, `Op.enc` and `Op.dec` say
what a statement does.
-/
namespace Verif.Cipher.Lea

/-- lea.cpp:29-71 `delta`. -/
def delta : List (List W32) := [
  [0xc3efe9db, 0x87dfd3b7, 0x0fbfa76f, 0x1f7f4ede, 0x3efe9dbc, 0x7dfd3b78, 0xfbfa76f0, 0xf7f4ede1, 0xefe9dbc3, 0xdfd3b787, 0xbfa76f0f, 0x7f4ede1f, 0xfe9dbc3e, 0xfd3b787d, 0xfa76f0fb, 0xf4ede1f7, 0xe9dbc3ef, 0xd3b787df, 0xa76f0fbf, 0x4ede1f7f, 0x9dbc3efe, 0x3b787dfd, 0x76f0fbfa, 0xede1f7f4, 0xdbc3efe9, 0xb787dfd3, 0x6f0fbfa7, 0xde1f7f4e, 0xbc3efe9d, 0x787dfd3b, 0xf0fbfa76, 0xe1f7f4ed, 0xc3efe9db, 0x87dfd3b7, 0x0fbfa76f, 0x1f7f4ede],
  [0x44626b02, 0x88c4d604, 0x1189ac09, 0x23135812, 0x4626b024, 0x8c4d6048, 0x189ac091, 0x31358122, 0x626b0244, 0xc4d60488, 0x89ac0911, 0x13581223, 0x26b02446, 0x4d60488c, 0x9ac09118, 0x35812231, 0x6b024462, 0xd60488c4, 0xac091189, 0x58122313, 0xb0244626, 0x60488c4d, 0xc091189a, 0x81223135, 0x0244626b, 0x0488c4d6, 0x091189ac, 0x12231358, 0x244626b0, 0x488c4d60, 0x91189ac0, 0x22313581, 0x44626b02, 0x88c4d604, 0x1189ac09, 0x23135812],
  [0x79e27c8a, 0xf3c4f914, 0xe789f229, 0xcf13e453, 0x9e27c8a7, 0x3c4f914f, 0x789f229e, 0xf13e453c, 0xe27c8a79, 0xc4f914f3, 0x89f229e7, 0x13e453cf, 0x27c8a79e, 0x4f914f3c, 0x9f229e78, 0x3e453cf1, 0x7c8a79e2, 0xf914f3c4, 0xf229e789, 0xe453cf13, 0xc8a79e27, 0x914f3c4f, 0x229e789f, 0x453cf13e, 0x8a79e27c, 0x14f3c4f9, 0x29e789f2, 0x53cf13e4, 0xa79e27c8, 0x4f3c4f91, 0x9e789f22, 0x3cf13e45, 0x79e27c8a, 0xf3c4f914, 0xe789f229, 0xcf13e453],
  [0x78df30ec, 0xf1be61d8, 0xe37cc3b1, 0xc6f98763, 0x8df30ec7, 0x1be61d8f, 0x37cc3b1e, 0x6f98763c, 0xdf30ec78, 0xbe61d8f1, 0x7cc3b1e3, 0xf98763c6, 0xf30ec78d, 0xe61d8f1b, 0xcc3b1e37, 0x98763c6f, 0x30ec78df, 0x61d8f1be, 0xc3b1e37c, 0x8763c6f9, 0x0ec78df3, 0x1d8f1be6, 0x3b1e37cc, 0x763c6f98, 0xec78df30, 0xd8f1be61, 0xb1e37cc3, 0x63c6f987, 0xc78df30e, 0x8f1be61d, 0x1e37cc3b, 0x3c6f9876, 0x78df30ec, 0xf1be61d8, 0xe37cc3b1, 0xc6f98763],
  [0x715ea49e, 0xe2bd493c, 0xc57a9279, 0x8af524f3, 0x15ea49e7, 0x2bd493ce, 0x57a9279c, 0xaf524f38, 0x5ea49e71, 0xbd493ce2, 0x7a9279c5, 0xf524f38a, 0xea49e715, 0xd493ce2b, 0xa9279c57, 0x524f38af, 0xa49e715e, 0x493ce2bd, 0x9279c57a, 0x24f38af5, 0x49e715ea, 0x93ce2bd4, 0x279c57a9, 0x4f38af52, 0x9e715ea4, 0x3ce2bd49, 0x79c57a92, 0xf38af524, 0xe715ea49, 0xce2bd493, 0x9c57a927, 0x38af524f, 0x715ea49e, 0xe2bd493c, 0xc57a9279, 0x8af524f3],
  [0xc785da0a, 0x8f0bb415, 0x1e17682b, 0x3c2ed056, 0x785da0ac, 0xf0bb4158, 0xe17682b1, 0xc2ed0563, 0x85da0ac7, 0x0bb4158f, 0x17682b1e, 0x2ed0563c, 0x5da0ac78, 0xbb4158f0, 0x7682b1e1, 0xed0563c2, 0xda0ac785, 0xb4158f0b, 0x682b1e17, 0xd0563c2e, 0xa0ac785d, 0x4158f0bb, 0x82b1e176, 0x0563c2ed, 0x0ac785da, 0x158f0bb4, 0x2b1e1768, 0x563c2ed0, 0xac785da0, 0x58f0bb41, 0xb1e17682, 0x63c2ed05, 0xc785da0a, 0x8f0bb415, 0x1e17682b, 0x3c2ed056],
  [0xe04ef22a, 0xc09de455, 0x813bc8ab, 0x02779157, 0x04ef22ae, 0x09de455c, 0x13bc8ab8, 0x27791570, 0x4ef22ae0, 0x9de455c0, 0x3bc8ab81, 0x77915702, 0xef22ae04, 0xde455c09, 0xbc8ab813, 0x79157027, 0xf22ae04e, 0xe455c09d, 0xc8ab813b, 0x91570277, 0x22ae04ef, 0x455c09de, 0x8ab813bc, 0x15702779, 0x2ae04ef2, 0x55c09de4, 0xab813bc8, 0x57027791, 0xae04ef22, 0x5c09de45, 0xb813bc8a, 0x70277915, 0xe04ef22a, 0xc09de455, 0x813bc8ab, 0x02779157],
  [0xe5c40957, 0xcb8812af, 0x9710255f, 0x2e204abf, 0x5c40957e, 0xb8812afc, 0x710255f9, 0xe204abf2, 0xc40957e5, 0x8812afcb, 0x10255f97, 0x204abf2e, 0x40957e5c, 0x812afcb8, 0x0255f971, 0x04abf2e2, 0x0957e5c4, 0x12afcb88, 0x255f9710, 0x4abf2e20, 0x957e5c40, 0x2afcb881, 0x55f97102, 0xabf2e204, 0x57e5c409, 0xafcb8812, 0x5f971025, 0xbf2e204a, 0x7e5c4095, 0xfcb8812a, 0xf9710255, 0xf2e204ab, 0xe5c40957, 0xcb8812af, 0x9710255f, 0x2e204abf]]

/-- A statement `rkey[t] = ... = rotlConstant<c>(src[i] + delta[d][e])`, where `src` is `key` or `rkey`. -/
structure KeyOp where
  targets : List Nat
  c : Nat
  user : Bool
  i : Nat
  d : Nat
  e : Nat

/-- What the statement does. -/
def KeyOp.run (key rkey : List W32) (o : KeyOp) : List W32 :=
  let x := rotl (nth (if o.user then key else rkey) o.i + nth (delta.getD o.d []) o.e) o.c
  o.targets.foldl (fun r t => r.set t x) rkey

/-- lea.cpp:73-174. -/
def setKey128 : List KeyOp :=
  [⟨[0], 1, true, 0, 0, 0⟩, ⟨[6], 1, false, 0, 1, 1⟩, ⟨[12], 1, false, 6, 2, 2⟩, ⟨[18], 1, false, 12, 3, 3⟩, ⟨[24], 1, false, 18, 0, 4⟩,
   ⟨[30], 1, false, 24, 1, 5⟩, ⟨[36], 1, false, 30, 2, 6⟩, ⟨[42], 1, false, 36, 3, 7⟩, ⟨[48], 1, false, 42, 0, 8⟩, ⟨[54], 1, false, 48, 1, 9⟩,
   ⟨[60], 1, false, 54, 2, 10⟩, ⟨[66], 1, false, 60, 3, 11⟩, ⟨[72], 1, false, 66, 0, 12⟩, ⟨[78], 1, false, 72, 1, 13⟩, ⟨[84], 1, false, 78, 2, 14⟩,
   ⟨[90], 1, false, 84, 3, 15⟩, ⟨[96], 1, false, 90, 0, 16⟩, ⟨[102], 1, false, 96, 1, 17⟩, ⟨[108], 1, false, 102, 2, 18⟩, ⟨[114], 1, false, 108, 3, 19⟩,
   ⟨[120], 1, false, 114, 0, 20⟩, ⟨[126], 1, false, 120, 1, 21⟩, ⟨[132], 1, false, 126, 2, 22⟩, ⟨[138], 1, false, 132, 3, 23⟩, ⟨[1, 3, 5], 3, true, 1, 0, 1⟩,
   ⟨[7, 9, 11], 3, false, 1, 1, 2⟩, ⟨[13, 15, 17], 3, false, 7, 2, 3⟩, ⟨[19, 21, 23], 3, false, 13, 3, 4⟩, ⟨[25, 27, 29], 3, false, 19, 0, 5⟩, ⟨[31, 33, 35], 3, false, 25, 1, 6⟩,
   ⟨[37, 39, 41], 3, false, 31, 2, 7⟩, ⟨[43, 45, 47], 3, false, 37, 3, 8⟩, ⟨[49, 51, 53], 3, false, 43, 0, 9⟩, ⟨[55, 57, 59], 3, false, 49, 1, 10⟩, ⟨[61, 63, 65], 3, false, 55, 2, 11⟩,
   ⟨[67, 69, 71], 3, false, 61, 3, 12⟩, ⟨[73, 75, 77], 3, false, 67, 0, 13⟩, ⟨[79, 81, 83], 3, false, 73, 1, 14⟩, ⟨[85, 87, 89], 3, false, 79, 2, 15⟩, ⟨[91, 93, 95], 3, false, 85, 3, 16⟩,
   ⟨[97, 99, 101], 3, false, 91, 0, 17⟩, ⟨[103, 105, 107], 3, false, 97, 1, 18⟩, ⟨[109, 111, 113], 3, false, 103, 2, 19⟩, ⟨[115, 117, 119], 3, false, 109, 3, 20⟩, ⟨[121, 123, 125], 3, false, 115, 0, 21⟩,
   ⟨[127, 129, 131], 3, false, 121, 1, 22⟩, ⟨[133, 135, 137], 3, false, 127, 2, 23⟩, ⟨[139, 141, 143], 3, false, 133, 3, 24⟩, ⟨[2], 6, true, 2, 0, 2⟩, ⟨[8], 6, false, 2, 1, 3⟩,
   ⟨[14], 6, false, 8, 2, 4⟩, ⟨[20], 6, false, 14, 3, 5⟩, ⟨[26], 6, false, 20, 0, 6⟩, ⟨[32], 6, false, 26, 1, 7⟩, ⟨[38], 6, false, 32, 2, 8⟩,
   ⟨[44], 6, false, 38, 3, 9⟩, ⟨[50], 6, false, 44, 0, 10⟩, ⟨[56], 6, false, 50, 1, 11⟩, ⟨[62], 6, false, 56, 2, 12⟩, ⟨[68], 6, false, 62, 3, 13⟩,
   ⟨[74], 6, false, 68, 0, 14⟩, ⟨[80], 6, false, 74, 1, 15⟩, ⟨[86], 6, false, 80, 2, 16⟩, ⟨[92], 6, false, 86, 3, 17⟩, ⟨[98], 6, false, 92, 0, 18⟩,
   ⟨[104], 6, false, 98, 1, 19⟩, ⟨[110], 6, false, 104, 2, 20⟩, ⟨[116], 6, false, 110, 3, 21⟩, ⟨[122], 6, false, 116, 0, 22⟩, ⟨[128], 6, false, 122, 1, 23⟩,
   ⟨[134], 6, false, 128, 2, 24⟩, ⟨[140], 6, false, 134, 3, 25⟩, ⟨[4], 11, true, 3, 0, 3⟩, ⟨[10], 11, false, 4, 1, 4⟩, ⟨[16], 11, false, 10, 2, 5⟩,
   ⟨[22], 11, false, 16, 3, 6⟩, ⟨[28], 11, false, 22, 0, 7⟩, ⟨[34], 11, false, 28, 1, 8⟩, ⟨[40], 11, false, 34, 2, 9⟩, ⟨[46], 11, false, 40, 3, 10⟩,
   ⟨[52], 11, false, 46, 0, 11⟩, ⟨[58], 11, false, 52, 1, 12⟩, ⟨[64], 11, false, 58, 2, 13⟩, ⟨[70], 11, false, 64, 3, 14⟩, ⟨[76], 11, false, 70, 0, 15⟩,
   ⟨[82], 11, false, 76, 1, 16⟩, ⟨[88], 11, false, 82, 2, 17⟩, ⟨[94], 11, false, 88, 3, 18⟩, ⟨[100], 11, false, 94, 0, 19⟩, ⟨[106], 11, false, 100, 1, 20⟩,
   ⟨[112], 11, false, 106, 2, 21⟩, ⟨[118], 11, false, 112, 3, 22⟩, ⟨[124], 11, false, 118, 0, 23⟩, ⟨[130], 11, false, 124, 1, 24⟩, ⟨[136], 11, false, 130, 2, 25⟩,
   ⟨[142], 11, false, 136, 3, 26⟩]

/-- lea.cpp:176-351. -/
def setKey192 : List KeyOp :=
  [⟨[0], 1, true, 0, 0, 0⟩, ⟨[6], 1, false, 0, 1, 1⟩, ⟨[12], 1, false, 6, 2, 2⟩, ⟨[18], 1, false, 12, 3, 3⟩, ⟨[24], 1, false, 18, 4, 4⟩,
   ⟨[30], 1, false, 24, 5, 5⟩, ⟨[36], 1, false, 30, 0, 6⟩, ⟨[42], 1, false, 36, 1, 7⟩, ⟨[48], 1, false, 42, 2, 8⟩, ⟨[54], 1, false, 48, 3, 9⟩,
   ⟨[60], 1, false, 54, 4, 10⟩, ⟨[66], 1, false, 60, 5, 11⟩, ⟨[72], 1, false, 66, 0, 12⟩, ⟨[78], 1, false, 72, 1, 13⟩, ⟨[84], 1, false, 78, 2, 14⟩,
   ⟨[90], 1, false, 84, 3, 15⟩, ⟨[96], 1, false, 90, 4, 16⟩, ⟨[102], 1, false, 96, 5, 17⟩, ⟨[108], 1, false, 102, 0, 18⟩, ⟨[114], 1, false, 108, 1, 19⟩,
   ⟨[120], 1, false, 114, 2, 20⟩, ⟨[126], 1, false, 120, 3, 21⟩, ⟨[132], 1, false, 126, 4, 22⟩, ⟨[138], 1, false, 132, 5, 23⟩, ⟨[144], 1, false, 138, 0, 24⟩,
   ⟨[150], 1, false, 144, 1, 25⟩, ⟨[156], 1, false, 150, 2, 26⟩, ⟨[162], 1, false, 156, 3, 27⟩, ⟨[1], 3, true, 1, 0, 1⟩, ⟨[7], 3, false, 1, 1, 2⟩,
   ⟨[13], 3, false, 7, 2, 3⟩, ⟨[19], 3, false, 13, 3, 4⟩, ⟨[25], 3, false, 19, 4, 5⟩, ⟨[31], 3, false, 25, 5, 6⟩, ⟨[37], 3, false, 31, 0, 7⟩,
   ⟨[43], 3, false, 37, 1, 8⟩, ⟨[49], 3, false, 43, 2, 9⟩, ⟨[55], 3, false, 49, 3, 10⟩, ⟨[61], 3, false, 55, 4, 11⟩, ⟨[67], 3, false, 61, 5, 12⟩,
   ⟨[73], 3, false, 67, 0, 13⟩, ⟨[79], 3, false, 73, 1, 14⟩, ⟨[85], 3, false, 79, 2, 15⟩, ⟨[91], 3, false, 85, 3, 16⟩, ⟨[97], 3, false, 91, 4, 17⟩,
   ⟨[103], 3, false, 97, 5, 18⟩, ⟨[109], 3, false, 103, 0, 19⟩, ⟨[115], 3, false, 109, 1, 20⟩, ⟨[121], 3, false, 115, 2, 21⟩, ⟨[127], 3, false, 121, 3, 22⟩,
   ⟨[133], 3, false, 127, 4, 23⟩, ⟨[139], 3, false, 133, 5, 24⟩, ⟨[145], 3, false, 139, 0, 25⟩, ⟨[151], 3, false, 145, 1, 26⟩, ⟨[157], 3, false, 151, 2, 27⟩,
   ⟨[163], 3, false, 157, 3, 28⟩, ⟨[2], 6, true, 2, 0, 2⟩, ⟨[8], 6, false, 2, 1, 3⟩, ⟨[14], 6, false, 8, 2, 4⟩, ⟨[20], 6, false, 14, 3, 5⟩,
   ⟨[26], 6, false, 20, 4, 6⟩, ⟨[32], 6, false, 26, 5, 7⟩, ⟨[38], 6, false, 32, 0, 8⟩, ⟨[44], 6, false, 38, 1, 9⟩, ⟨[50], 6, false, 44, 2, 10⟩,
   ⟨[56], 6, false, 50, 3, 11⟩, ⟨[62], 6, false, 56, 4, 12⟩, ⟨[68], 6, false, 62, 5, 13⟩, ⟨[74], 6, false, 68, 0, 14⟩, ⟨[80], 6, false, 74, 1, 15⟩,
   ⟨[86], 6, false, 80, 2, 16⟩, ⟨[92], 6, false, 86, 3, 17⟩, ⟨[98], 6, false, 92, 4, 18⟩, ⟨[104], 6, false, 98, 5, 19⟩, ⟨[110], 6, false, 104, 0, 20⟩,
   ⟨[116], 6, false, 110, 1, 21⟩, ⟨[122], 6, false, 116, 2, 22⟩, ⟨[128], 6, false, 122, 3, 23⟩, ⟨[134], 6, false, 128, 4, 24⟩, ⟨[140], 6, false, 134, 5, 25⟩,
   ⟨[146], 6, false, 140, 0, 26⟩, ⟨[152], 6, false, 146, 1, 27⟩, ⟨[158], 6, false, 152, 2, 28⟩, ⟨[164], 6, false, 158, 3, 29⟩, ⟨[3], 11, true, 3, 0, 3⟩,
   ⟨[9], 11, false, 3, 1, 4⟩, ⟨[15], 11, false, 9, 2, 5⟩, ⟨[21], 11, false, 15, 3, 6⟩, ⟨[27], 11, false, 21, 4, 7⟩, ⟨[33], 11, false, 27, 5, 8⟩,
   ⟨[39], 11, false, 33, 0, 9⟩, ⟨[45], 11, false, 39, 1, 10⟩, ⟨[51], 11, false, 45, 2, 11⟩, ⟨[57], 11, false, 51, 3, 12⟩, ⟨[63], 11, false, 57, 4, 13⟩,
   ⟨[69], 11, false, 63, 5, 14⟩, ⟨[75], 11, false, 69, 0, 15⟩, ⟨[81], 11, false, 75, 1, 16⟩, ⟨[87], 11, false, 81, 2, 17⟩, ⟨[93], 11, false, 87, 3, 18⟩,
   ⟨[99], 11, false, 93, 4, 19⟩, ⟨[105], 11, false, 99, 5, 20⟩, ⟨[111], 11, false, 105, 0, 21⟩, ⟨[117], 11, false, 111, 1, 22⟩, ⟨[123], 11, false, 117, 2, 23⟩,
   ⟨[129], 11, false, 123, 3, 24⟩, ⟨[135], 11, false, 129, 4, 25⟩, ⟨[141], 11, false, 135, 5, 26⟩, ⟨[147], 11, false, 141, 0, 27⟩, ⟨[153], 11, false, 147, 1, 28⟩,
   ⟨[159], 11, false, 153, 2, 29⟩, ⟨[165], 11, false, 159, 3, 30⟩, ⟨[4], 13, true, 4, 0, 4⟩, ⟨[10], 13, false, 4, 1, 5⟩, ⟨[16], 13, false, 10, 2, 6⟩,
   ⟨[22], 13, false, 16, 3, 7⟩, ⟨[28], 13, false, 22, 4, 8⟩, ⟨[34], 13, false, 28, 5, 9⟩, ⟨[40], 13, false, 34, 0, 10⟩, ⟨[46], 13, false, 40, 1, 11⟩,
   ⟨[52], 13, false, 46, 2, 12⟩, ⟨[58], 13, false, 52, 3, 13⟩, ⟨[64], 13, false, 58, 4, 14⟩, ⟨[70], 13, false, 64, 5, 15⟩, ⟨[76], 13, false, 70, 0, 16⟩,
   ⟨[82], 13, false, 76, 1, 17⟩, ⟨[88], 13, false, 82, 2, 18⟩, ⟨[94], 13, false, 88, 3, 19⟩, ⟨[100], 13, false, 94, 4, 20⟩, ⟨[106], 13, false, 100, 5, 21⟩,
   ⟨[112], 13, false, 106, 0, 22⟩, ⟨[118], 13, false, 112, 1, 23⟩, ⟨[124], 13, false, 118, 2, 24⟩, ⟨[130], 13, false, 124, 3, 25⟩, ⟨[136], 13, false, 130, 4, 26⟩,
   ⟨[142], 13, false, 136, 5, 27⟩, ⟨[148], 13, false, 142, 0, 28⟩, ⟨[154], 13, false, 148, 1, 29⟩, ⟨[160], 13, false, 154, 2, 30⟩, ⟨[166], 13, false, 160, 3, 31⟩,
   ⟨[5], 17, true, 5, 0, 5⟩, ⟨[11], 17, false, 5, 1, 6⟩, ⟨[17], 17, false, 11, 2, 7⟩, ⟨[23], 17, false, 17, 3, 8⟩, ⟨[29], 17, false, 23, 4, 9⟩,
   ⟨[35], 17, false, 29, 5, 10⟩, ⟨[41], 17, false, 35, 0, 11⟩, ⟨[47], 17, false, 41, 1, 12⟩, ⟨[53], 17, false, 47, 2, 13⟩, ⟨[59], 17, false, 53, 3, 14⟩,
   ⟨[65], 17, false, 59, 4, 15⟩, ⟨[71], 17, false, 65, 5, 16⟩, ⟨[77], 17, false, 71, 0, 17⟩, ⟨[83], 17, false, 77, 1, 18⟩, ⟨[89], 17, false, 83, 2, 19⟩,
   ⟨[95], 17, false, 89, 3, 20⟩, ⟨[101], 17, false, 95, 4, 21⟩, ⟨[107], 17, false, 101, 5, 22⟩, ⟨[113], 17, false, 107, 0, 23⟩, ⟨[119], 17, false, 113, 1, 24⟩,
   ⟨[125], 17, false, 119, 2, 25⟩, ⟨[131], 17, false, 125, 3, 26⟩, ⟨[137], 17, false, 131, 4, 27⟩, ⟨[143], 17, false, 137, 5, 28⟩, ⟨[149], 17, false, 143, 0, 29⟩,
   ⟨[155], 17, false, 149, 1, 30⟩, ⟨[161], 17, false, 155, 2, 31⟩, ⟨[167], 17, false, 161, 3, 0⟩]

/-- lea.cpp:353-554. -/
def setKey256 : List KeyOp :=
  [⟨[0], 1, true, 0, 0, 0⟩, ⟨[8], 6, false, 0, 1, 3⟩, ⟨[16], 13, false, 8, 2, 6⟩, ⟨[24], 1, false, 16, 4, 4⟩, ⟨[32], 6, false, 24, 5, 7⟩,
   ⟨[40], 13, false, 32, 6, 10⟩, ⟨[48], 1, false, 40, 0, 8⟩, ⟨[56], 6, false, 48, 1, 11⟩, ⟨[64], 13, false, 56, 2, 14⟩, ⟨[72], 1, false, 64, 4, 12⟩,
   ⟨[80], 6, false, 72, 5, 15⟩, ⟨[88], 13, false, 80, 6, 18⟩, ⟨[96], 1, false, 88, 0, 16⟩, ⟨[104], 6, false, 96, 1, 19⟩, ⟨[112], 13, false, 104, 2, 22⟩,
   ⟨[120], 1, false, 112, 4, 20⟩, ⟨[128], 6, false, 120, 5, 23⟩, ⟨[136], 13, false, 128, 6, 26⟩, ⟨[144], 1, false, 136, 0, 24⟩, ⟨[152], 6, false, 144, 1, 27⟩,
   ⟨[160], 13, false, 152, 2, 30⟩, ⟨[168], 1, false, 160, 4, 28⟩, ⟨[176], 6, false, 168, 5, 31⟩, ⟨[184], 13, false, 176, 6, 2⟩, ⟨[1], 3, true, 1, 0, 1⟩,
   ⟨[9], 11, false, 1, 1, 4⟩, ⟨[17], 17, false, 9, 2, 7⟩, ⟨[25], 3, false, 17, 4, 5⟩, ⟨[33], 11, false, 25, 5, 8⟩, ⟨[41], 17, false, 33, 6, 11⟩,
   ⟨[49], 3, false, 41, 0, 9⟩, ⟨[57], 11, false, 49, 1, 12⟩, ⟨[65], 17, false, 57, 2, 15⟩, ⟨[73], 3, false, 65, 4, 13⟩, ⟨[81], 11, false, 73, 5, 16⟩,
   ⟨[89], 17, false, 81, 6, 19⟩, ⟨[97], 3, false, 89, 0, 17⟩, ⟨[105], 11, false, 97, 1, 20⟩, ⟨[113], 17, false, 105, 2, 23⟩, ⟨[121], 3, false, 113, 4, 21⟩,
   ⟨[129], 11, false, 121, 5, 24⟩, ⟨[137], 17, false, 129, 6, 27⟩, ⟨[145], 3, false, 137, 0, 25⟩, ⟨[153], 11, false, 145, 1, 28⟩, ⟨[161], 17, false, 153, 2, 31⟩,
   ⟨[169], 3, false, 161, 4, 29⟩, ⟨[177], 11, false, 169, 5, 0⟩, ⟨[185], 17, false, 177, 6, 3⟩, ⟨[2], 6, true, 2, 0, 2⟩, ⟨[10], 13, false, 2, 1, 5⟩,
   ⟨[18], 1, false, 10, 3, 3⟩, ⟨[26], 6, false, 18, 4, 6⟩, ⟨[34], 13, false, 26, 5, 9⟩, ⟨[42], 1, false, 34, 7, 7⟩, ⟨[50], 6, false, 42, 0, 10⟩,
   ⟨[58], 13, false, 50, 1, 13⟩, ⟨[66], 1, false, 58, 3, 11⟩, ⟨[74], 6, false, 66, 4, 14⟩, ⟨[82], 13, false, 74, 5, 17⟩, ⟨[90], 1, false, 82, 7, 15⟩,
   ⟨[98], 6, false, 90, 0, 18⟩, ⟨[106], 13, false, 98, 1, 21⟩, ⟨[114], 1, false, 106, 3, 19⟩, ⟨[122], 6, false, 114, 4, 22⟩, ⟨[130], 13, false, 122, 5, 25⟩,
   ⟨[138], 1, false, 130, 7, 23⟩, ⟨[146], 6, false, 138, 0, 26⟩, ⟨[154], 13, false, 146, 1, 29⟩, ⟨[162], 1, false, 154, 3, 27⟩, ⟨[170], 6, false, 162, 4, 30⟩,
   ⟨[178], 13, false, 170, 5, 1⟩, ⟨[186], 1, false, 178, 7, 31⟩, ⟨[3], 11, true, 3, 0, 3⟩, ⟨[11], 17, false, 3, 1, 6⟩, ⟨[19], 3, false, 11, 3, 4⟩,
   ⟨[27], 11, false, 19, 4, 7⟩, ⟨[35], 17, false, 27, 5, 10⟩, ⟨[43], 3, false, 35, 7, 8⟩, ⟨[51], 11, false, 43, 0, 11⟩, ⟨[59], 17, false, 51, 1, 14⟩,
   ⟨[67], 3, false, 59, 3, 12⟩, ⟨[75], 11, false, 67, 4, 15⟩, ⟨[83], 17, false, 75, 5, 18⟩, ⟨[91], 3, false, 83, 7, 16⟩, ⟨[99], 11, false, 91, 0, 19⟩,
   ⟨[107], 17, false, 99, 1, 22⟩, ⟨[115], 3, false, 107, 3, 20⟩, ⟨[123], 11, false, 115, 4, 23⟩, ⟨[131], 17, false, 123, 5, 26⟩, ⟨[139], 3, false, 131, 7, 24⟩,
   ⟨[147], 11, false, 139, 0, 27⟩, ⟨[155], 17, false, 147, 1, 30⟩, ⟨[163], 3, false, 155, 3, 28⟩, ⟨[171], 11, false, 163, 4, 31⟩, ⟨[179], 17, false, 171, 5, 2⟩,
   ⟨[187], 3, false, 179, 7, 0⟩, ⟨[4], 13, true, 4, 0, 4⟩, ⟨[12], 1, false, 4, 2, 2⟩, ⟨[20], 6, false, 12, 3, 5⟩, ⟨[28], 13, false, 20, 4, 8⟩,
   ⟨[36], 1, false, 28, 6, 6⟩, ⟨[44], 6, false, 36, 7, 9⟩, ⟨[52], 13, false, 44, 0, 12⟩, ⟨[60], 1, false, 52, 2, 10⟩, ⟨[68], 6, false, 60, 3, 13⟩,
   ⟨[76], 13, false, 68, 4, 16⟩, ⟨[84], 1, false, 76, 6, 14⟩, ⟨[92], 6, false, 84, 7, 17⟩, ⟨[100], 13, false, 92, 0, 20⟩, ⟨[108], 1, false, 100, 2, 18⟩,
   ⟨[116], 6, false, 108, 3, 21⟩, ⟨[124], 13, false, 116, 4, 24⟩, ⟨[132], 1, false, 124, 6, 22⟩, ⟨[140], 6, false, 132, 7, 25⟩, ⟨[148], 13, false, 140, 0, 28⟩,
   ⟨[156], 1, false, 148, 2, 26⟩, ⟨[164], 6, false, 156, 3, 29⟩, ⟨[172], 13, false, 164, 4, 0⟩, ⟨[180], 1, false, 172, 6, 30⟩, ⟨[188], 6, false, 180, 7, 1⟩,
   ⟨[5], 17, true, 5, 0, 5⟩, ⟨[13], 3, false, 5, 2, 3⟩, ⟨[21], 11, false, 13, 3, 6⟩, ⟨[29], 17, false, 21, 4, 9⟩, ⟨[37], 3, false, 29, 6, 7⟩,
   ⟨[45], 11, false, 37, 7, 10⟩, ⟨[53], 17, false, 45, 0, 13⟩, ⟨[61], 3, false, 53, 2, 11⟩, ⟨[69], 11, false, 61, 3, 14⟩, ⟨[77], 17, false, 69, 4, 17⟩,
   ⟨[85], 3, false, 77, 6, 15⟩, ⟨[93], 11, false, 85, 7, 18⟩, ⟨[101], 17, false, 93, 0, 21⟩, ⟨[109], 3, false, 101, 2, 19⟩, ⟨[117], 11, false, 109, 3, 22⟩,
   ⟨[125], 17, false, 117, 4, 25⟩, ⟨[133], 3, false, 125, 6, 23⟩, ⟨[141], 11, false, 133, 7, 26⟩, ⟨[149], 17, false, 141, 0, 29⟩, ⟨[157], 3, false, 149, 2, 27⟩,
   ⟨[165], 11, false, 157, 3, 30⟩, ⟨[173], 17, false, 165, 4, 1⟩, ⟨[181], 3, false, 173, 6, 31⟩, ⟨[189], 11, false, 181, 7, 2⟩, ⟨[6], 1, true, 6, 1, 1⟩,
   ⟨[14], 6, false, 6, 2, 4⟩, ⟨[22], 13, false, 14, 3, 7⟩, ⟨[30], 1, false, 22, 5, 5⟩, ⟨[38], 6, false, 30, 6, 8⟩, ⟨[46], 13, false, 38, 7, 11⟩,
   ⟨[54], 1, false, 46, 1, 9⟩, ⟨[62], 6, false, 54, 2, 12⟩, ⟨[70], 13, false, 62, 3, 15⟩, ⟨[78], 1, false, 70, 5, 13⟩, ⟨[86], 6, false, 78, 6, 16⟩,
   ⟨[94], 13, false, 86, 7, 19⟩, ⟨[102], 1, false, 94, 1, 17⟩, ⟨[110], 6, false, 102, 2, 20⟩, ⟨[118], 13, false, 110, 3, 23⟩, ⟨[126], 1, false, 118, 5, 21⟩,
   ⟨[134], 6, false, 126, 6, 24⟩, ⟨[142], 13, false, 134, 7, 27⟩, ⟨[150], 1, false, 142, 1, 25⟩, ⟨[158], 6, false, 150, 2, 28⟩, ⟨[166], 13, false, 158, 3, 31⟩,
   ⟨[174], 1, false, 166, 5, 29⟩, ⟨[182], 6, false, 174, 6, 0⟩, ⟨[190], 13, false, 182, 7, 3⟩, ⟨[7], 3, true, 7, 1, 2⟩, ⟨[15], 11, false, 7, 2, 5⟩,
   ⟨[23], 17, false, 15, 3, 8⟩, ⟨[31], 3, false, 23, 5, 6⟩, ⟨[39], 11, false, 31, 6, 9⟩, ⟨[47], 17, false, 39, 7, 12⟩, ⟨[55], 3, false, 47, 1, 10⟩,
   ⟨[63], 11, false, 55, 2, 13⟩, ⟨[71], 17, false, 63, 3, 16⟩, ⟨[79], 3, false, 71, 5, 14⟩, ⟨[87], 11, false, 79, 6, 17⟩, ⟨[95], 17, false, 87, 7, 20⟩,
   ⟨[103], 3, false, 95, 1, 18⟩, ⟨[111], 11, false, 103, 2, 21⟩, ⟨[119], 17, false, 111, 3, 24⟩, ⟨[127], 3, false, 119, 5, 22⟩, ⟨[135], 11, false, 127, 6, 25⟩,
   ⟨[143], 17, false, 135, 7, 28⟩, ⟨[151], 3, false, 143, 1, 26⟩, ⟨[159], 11, false, 151, 2, 29⟩, ⟨[167], 17, false, 159, 3, 0⟩, ⟨[175], 3, false, 167, 5, 30⟩,
   ⟨[183], 11, false, 175, 6, 1⟩, ⟨[191], 17, false, 183, 7, 4⟩]

inductive Dir where
  | left
  | right
  deriving DecidableEq

/-- `rotlConstant<c>` or `rotrConstant<c>`. -/
def rot (d : Dir) (c : Nat) (x : W32) : W32 := match d with
  | .left => rotl x c
  | .right => rotr x c

/-- A statement of `Enc`: `m_temp[i] = rot<c>((m_temp[a] ^ m_rkey[k1]) + (m_temp[i] ^ m_rkey[k2]))`; or of `Dec`:
`m_temp[i] = (rot<c>(m_temp[i]) - (m_temp[a] ^ m_rkey[k1])) ^ m_rkey[k2]`. -/
structure Op where
  i : Nat
  a : Nat
  d : Dir
  c : Nat
  k1 : Nat
  k2 : Nat
  deriving DecidableEq

/-- What a statement of `Enc` does. -/
def Op.enc (rkey : List W32) (o : Op) (t : List W32) : List W32 :=
  t.set o.i (rot o.d o.c ((nth t o.a ^^^ nth rkey o.k1) + (nth t o.i ^^^ nth rkey o.k2)))

/-- What a statement of `Dec` does. -/
def Op.dec (rkey : List W32) (o : Op) (t : List W32) : List W32 :=
  t.set o.i ((rot o.d o.c (nth t o.i) - (nth t o.a ^^^ nth rkey o.k1)) ^^^ nth rkey o.k2)

/-- lea.cpp:629-705. -/
def enc24 : List Op :=
  [⟨3, 2, .right, 3, 4, 5⟩, ⟨2, 1, .right, 5, 2, 3⟩, ⟨1, 0, .left, 9, 0, 1⟩, ⟨0, 3, .right, 3, 10, 11⟩,
   ⟨3, 2, .right, 5, 8, 9⟩, ⟨2, 1, .left, 9, 6, 7⟩, ⟨1, 0, .right, 3, 16, 17⟩, ⟨0, 3, .right, 5, 14, 15⟩,
   ⟨3, 2, .left, 9, 12, 13⟩, ⟨2, 1, .right, 3, 22, 23⟩, ⟨1, 0, .right, 5, 20, 21⟩, ⟨0, 3, .left, 9, 18, 19⟩,
   ⟨3, 2, .right, 3, 28, 29⟩, ⟨2, 1, .right, 5, 26, 27⟩, ⟨1, 0, .left, 9, 24, 25⟩, ⟨0, 3, .right, 3, 34, 35⟩,
   ⟨3, 2, .right, 5, 32, 33⟩, ⟨2, 1, .left, 9, 30, 31⟩, ⟨1, 0, .right, 3, 40, 41⟩, ⟨0, 3, .right, 5, 38, 39⟩,
   ⟨3, 2, .left, 9, 36, 37⟩, ⟨2, 1, .right, 3, 46, 47⟩, ⟨1, 0, .right, 5, 44, 45⟩, ⟨0, 3, .left, 9, 42, 43⟩,
   ⟨3, 2, .right, 3, 52, 53⟩, ⟨2, 1, .right, 5, 50, 51⟩, ⟨1, 0, .left, 9, 48, 49⟩, ⟨0, 3, .right, 3, 58, 59⟩,
   ⟨3, 2, .right, 5, 56, 57⟩, ⟨2, 1, .left, 9, 54, 55⟩, ⟨1, 0, .right, 3, 64, 65⟩, ⟨0, 3, .right, 5, 62, 63⟩,
   ⟨3, 2, .left, 9, 60, 61⟩, ⟨2, 1, .right, 3, 70, 71⟩, ⟨1, 0, .right, 5, 68, 69⟩, ⟨0, 3, .left, 9, 66, 67⟩,
   ⟨3, 2, .right, 3, 76, 77⟩, ⟨2, 1, .right, 5, 74, 75⟩, ⟨1, 0, .left, 9, 72, 73⟩, ⟨0, 3, .right, 3, 82, 83⟩,
   ⟨3, 2, .right, 5, 80, 81⟩, ⟨2, 1, .left, 9, 78, 79⟩, ⟨1, 0, .right, 3, 88, 89⟩, ⟨0, 3, .right, 5, 86, 87⟩,
   ⟨3, 2, .left, 9, 84, 85⟩, ⟨2, 1, .right, 3, 94, 95⟩, ⟨1, 0, .right, 5, 92, 93⟩, ⟨0, 3, .left, 9, 90, 91⟩,
   ⟨3, 2, .right, 3, 100, 101⟩, ⟨2, 1, .right, 5, 98, 99⟩, ⟨1, 0, .left, 9, 96, 97⟩, ⟨0, 3, .right, 3, 106, 107⟩,
   ⟨3, 2, .right, 5, 104, 105⟩, ⟨2, 1, .left, 9, 102, 103⟩, ⟨1, 0, .right, 3, 112, 113⟩, ⟨0, 3, .right, 5, 110, 111⟩,
   ⟨3, 2, .left, 9, 108, 109⟩, ⟨2, 1, .right, 3, 118, 119⟩, ⟨1, 0, .right, 5, 116, 117⟩, ⟨0, 3, .left, 9, 114, 115⟩,
   ⟨3, 2, .right, 3, 124, 125⟩, ⟨2, 1, .right, 5, 122, 123⟩, ⟨1, 0, .left, 9, 120, 121⟩, ⟨0, 3, .right, 3, 130, 131⟩,
   ⟨3, 2, .right, 5, 128, 129⟩, ⟨2, 1, .left, 9, 126, 127⟩, ⟨1, 0, .right, 3, 136, 137⟩, ⟨0, 3, .right, 5, 134, 135⟩,
   ⟨3, 2, .left, 9, 132, 133⟩, ⟨2, 1, .right, 3, 142, 143⟩, ⟨1, 0, .right, 5, 140, 141⟩, ⟨0, 3, .left, 9, 138, 139⟩]

/-- lea.cpp:707-721: `if (m_rounds > 24)`. -/
def enc28 : List Op :=
  [⟨3, 2, .right, 3, 148, 149⟩, ⟨2, 1, .right, 5, 146, 147⟩, ⟨1, 0, .left, 9, 144, 145⟩, ⟨0, 3, .right, 3, 154, 155⟩,
   ⟨3, 2, .right, 5, 152, 153⟩, ⟨2, 1, .left, 9, 150, 151⟩, ⟨1, 0, .right, 3, 160, 161⟩, ⟨0, 3, .right, 5, 158, 159⟩,
   ⟨3, 2, .left, 9, 156, 157⟩, ⟨2, 1, .right, 3, 166, 167⟩, ⟨1, 0, .right, 5, 164, 165⟩, ⟨0, 3, .left, 9, 162, 163⟩]

/-- lea.cpp:723-737: `if (m_rounds > 28)`. -/
def enc32 : List Op :=
  [⟨3, 2, .right, 3, 172, 173⟩, ⟨2, 1, .right, 5, 170, 171⟩, ⟨1, 0, .left, 9, 168, 169⟩, ⟨0, 3, .right, 3, 178, 179⟩,
   ⟨3, 2, .right, 5, 176, 177⟩, ⟨2, 1, .left, 9, 174, 175⟩, ⟨1, 0, .right, 3, 184, 185⟩, ⟨0, 3, .right, 5, 182, 183⟩,
   ⟨3, 2, .left, 9, 180, 181⟩, ⟨2, 1, .right, 3, 190, 191⟩, ⟨1, 0, .right, 5, 188, 189⟩, ⟨0, 3, .left, 9, 186, 187⟩]

/-- lea.cpp:749-763: `if (m_rounds > 28)`. -/
def dec32 : List Op :=
  [⟨0, 3, .right, 9, 186, 187⟩, ⟨1, 0, .left, 5, 188, 189⟩, ⟨2, 1, .left, 3, 190, 191⟩, ⟨3, 2, .right, 9, 180, 181⟩,
   ⟨0, 3, .left, 5, 182, 183⟩, ⟨1, 0, .left, 3, 184, 185⟩, ⟨2, 1, .right, 9, 174, 175⟩, ⟨3, 2, .left, 5, 176, 177⟩,
   ⟨0, 3, .left, 3, 178, 179⟩, ⟨1, 0, .right, 9, 168, 169⟩, ⟨2, 1, .left, 5, 170, 171⟩, ⟨3, 2, .left, 3, 172, 173⟩]

/-- lea.cpp:765-779: `if (m_rounds > 24)`. -/
def dec28 : List Op :=
  [⟨0, 3, .right, 9, 162, 163⟩, ⟨1, 0, .left, 5, 164, 165⟩, ⟨2, 1, .left, 3, 166, 167⟩, ⟨3, 2, .right, 9, 156, 157⟩,
   ⟨0, 3, .left, 5, 158, 159⟩, ⟨1, 0, .left, 3, 160, 161⟩, ⟨2, 1, .right, 9, 150, 151⟩, ⟨3, 2, .left, 5, 152, 153⟩,
   ⟨0, 3, .left, 3, 154, 155⟩, ⟨1, 0, .right, 9, 144, 145⟩, ⟨2, 1, .left, 5, 146, 147⟩, ⟨3, 2, .left, 3, 148, 149⟩]

/-- lea.cpp:781-857. -/
def dec24 : List Op :=
  [⟨0, 3, .right, 9, 138, 139⟩, ⟨1, 0, .left, 5, 140, 141⟩, ⟨2, 1, .left, 3, 142, 143⟩, ⟨3, 2, .right, 9, 132, 133⟩,
   ⟨0, 3, .left, 5, 134, 135⟩, ⟨1, 0, .left, 3, 136, 137⟩, ⟨2, 1, .right, 9, 126, 127⟩, ⟨3, 2, .left, 5, 128, 129⟩,
   ⟨0, 3, .left, 3, 130, 131⟩, ⟨1, 0, .right, 9, 120, 121⟩, ⟨2, 1, .left, 5, 122, 123⟩, ⟨3, 2, .left, 3, 124, 125⟩,
   ⟨0, 3, .right, 9, 114, 115⟩, ⟨1, 0, .left, 5, 116, 117⟩, ⟨2, 1, .left, 3, 118, 119⟩, ⟨3, 2, .right, 9, 108, 109⟩,
   ⟨0, 3, .left, 5, 110, 111⟩, ⟨1, 0, .left, 3, 112, 113⟩, ⟨2, 1, .right, 9, 102, 103⟩, ⟨3, 2, .left, 5, 104, 105⟩,
   ⟨0, 3, .left, 3, 106, 107⟩, ⟨1, 0, .right, 9, 96, 97⟩, ⟨2, 1, .left, 5, 98, 99⟩, ⟨3, 2, .left, 3, 100, 101⟩,
   ⟨0, 3, .right, 9, 90, 91⟩, ⟨1, 0, .left, 5, 92, 93⟩, ⟨2, 1, .left, 3, 94, 95⟩, ⟨3, 2, .right, 9, 84, 85⟩,
   ⟨0, 3, .left, 5, 86, 87⟩, ⟨1, 0, .left, 3, 88, 89⟩, ⟨2, 1, .right, 9, 78, 79⟩, ⟨3, 2, .left, 5, 80, 81⟩,
   ⟨0, 3, .left, 3, 82, 83⟩, ⟨1, 0, .right, 9, 72, 73⟩, ⟨2, 1, .left, 5, 74, 75⟩, ⟨3, 2, .left, 3, 76, 77⟩,
   ⟨0, 3, .right, 9, 66, 67⟩, ⟨1, 0, .left, 5, 68, 69⟩, ⟨2, 1, .left, 3, 70, 71⟩, ⟨3, 2, .right, 9, 60, 61⟩,
   ⟨0, 3, .left, 5, 62, 63⟩, ⟨1, 0, .left, 3, 64, 65⟩, ⟨2, 1, .right, 9, 54, 55⟩, ⟨3, 2, .left, 5, 56, 57⟩,
   ⟨0, 3, .left, 3, 58, 59⟩, ⟨1, 0, .right, 9, 48, 49⟩, ⟨2, 1, .left, 5, 50, 51⟩, ⟨3, 2, .left, 3, 52, 53⟩,
   ⟨0, 3, .right, 9, 42, 43⟩, ⟨1, 0, .left, 5, 44, 45⟩, ⟨2, 1, .left, 3, 46, 47⟩, ⟨3, 2, .right, 9, 36, 37⟩,
   ⟨0, 3, .left, 5, 38, 39⟩, ⟨1, 0, .left, 3, 40, 41⟩, ⟨2, 1, .right, 9, 30, 31⟩, ⟨3, 2, .left, 5, 32, 33⟩,
   ⟨0, 3, .left, 3, 34, 35⟩, ⟨1, 0, .right, 9, 24, 25⟩, ⟨2, 1, .left, 5, 26, 27⟩, ⟨3, 2, .left, 3, 28, 29⟩,
   ⟨0, 3, .right, 9, 18, 19⟩, ⟨1, 0, .left, 5, 20, 21⟩, ⟨2, 1, .left, 3, 22, 23⟩, ⟨3, 2, .right, 9, 12, 13⟩,
   ⟨0, 3, .left, 5, 14, 15⟩, ⟨1, 0, .left, 3, 16, 17⟩, ⟨2, 1, .right, 9, 6, 7⟩, ⟨3, 2, .left, 5, 8, 9⟩,
   ⟨0, 3, .left, 3, 10, 11⟩, ⟨1, 0, .right, 9, 0, 1⟩, ⟨2, 1, .left, 5, 2, 3⟩, ⟨3, 2, .left, 3, 4, 5⟩]

/-- lea.cpp:623-741 `Enc::ProcessAndXorBlock`. -/
def enc (rkey : List W32) (rounds : Nat) (t : List W32) : List W32 :=
  let t := enc24.foldl (fun t o => o.enc rkey t) t
  let t := if rounds > 24 then enc28.foldl (fun t o => o.enc rkey t) t else t
  if rounds > 28 then enc32.foldl (fun t o => o.enc rkey t) t else t

/-- lea.cpp:743-861 `Dec::ProcessAndXorBlock`. -/
def dec (rkey : List W32) (rounds : Nat) (t : List W32) : List W32 :=
  let t := if rounds > 28 then dec32.foldl (fun t o => o.dec rkey t) t else t
  let t := if rounds > 24 then dec28.foldl (fun t o => o.dec rkey t) t else t
  dec24.foldl (fun t o => o.dec rkey t) t

/-- lea.cpp:591-621 with cryptlib.cpp:58-62 `SetKey`. -/
def setKey (key : List Byte) : Except Err Keyed :=
  let mk (n words rounds : Nat) (ops : List KeyOp) : Keyed :=
    let k := getUserKey .little 4 words key
    let rkey := ops.foldl (fun r o => o.run k r) (List.replicate n 0)
    ofWords .little 4 4 (enc rkey rounds) (dec rkey rounds)
  if key.length = 16 then pure (mk 144 4 24 setKey128)
  else if key.length = 24 then pure (mk 168 6 28 setKey192)
  else if key.length = 32 then pure (mk 192 8 32 setKey256)
  else throw .invalidArgument

end Verif.Cipher.Lea
