import Verif.Model.EiselLemire
/-!
# Certificates for the table of powers of five

For every entry of the table two fractions `a/b < c/d` with `c*b - a*d = 1` that enclose the entry and the true value
(both divided by the same power of two). No fraction with a denominator below `b + d` lies between the two, hence multiplying the
entry or the true value by a 64-bit number gives the same leading bits. Computed outside Lean by walking the Stern-Brocot tree; only
their being valid, which is checked in `Verif.Lemmas.FloatTable`, matters.
-/
namespace Utki.FastFloat

/-- Two neighbouring fractions `a/b` and `c/d`. -/
structure FareyCert where
  a : Nat
  b : Nat
  c : Nat
  d : Nat

/-- for the precision of `double`, powers of ten from -342 to 308 -/
def certDouble : List FareyCert := [
  ⟨0x20a626efce5e3d1, 0x45f4bf20c2add1b5e, 0x338ee9f82a5ef29, 0x6e78e49b96c3a377d⟩,
  ⟨0x1e490e8ec2de266, 0x67d390b573782595d, 0xbd179e53980717, 0x2884257ad415d1c1f⟩,
  ⟨0xb78ea91752e9727, 0x1f76d4dafdff659bb2, 0xd7b00964d77c25, 0x24f8c5889f20c1d1f⟩,
  ⟨0xf64c1419087981f, 0x21c6613387f171b8d1, 0xd7b00964d77c25, 0x1d93d13a18e70174c⟩,
  ⟨0x19bb624ac402476, 0x5a55531ba4139e3c9, 0x111421545a369069, 0x3bf4922ade7d4fd8a8⟩,
  ⟨0xcddb125620123b, 0x2422213e41a1727ea, 0x2d82d2130ef8a8d5, 0x7fd09b9b5b55f0bd03⟩,
  ⟨0x1991e7c9b4ec9439, 0x3973040f700507882a, 0xac6503703261c89, 0x18353ddfefce557441⟩,
  ⟨0x93f3ebbaf1c0ace, 0x213dc62f8036b213e9, 0x8ecdd44aced4d93, 0x2015a1c332d8cb82d3⟩,
  ⟨0x122c1c005c095861, 0x3442b98ef5a5fe1230, 0x21df37964b344f71, 0x616909b5e5e849198f⟩,
  ⟨0x10b855854d1cfbee, 0x2677a58a98c74b7c21, 0x173c67b0eec5c73, 0x357554e2bbd7fc59f⟩,
  ⟨0x2006ba8bce4b44f, 0x75e4248a0ef51f0f6, 0x4a1a60803c14147, 0x110c765cff6da80ef7⟩,
  ⟨0x2006ba8bce4b44f, 0x5e501d3b3f2a7f3f8, 0x74a6048925d18d4, 0x157837bbc663a605f1⟩,
  ⟨0xb1d640373d91358, 0x1a2f6c652325c5fc51, 0x91cf85ab6f45f09, 0x157837bbc663a605f1⟩,
  ⟨0x6f25e822867ac17, 0x1a2f6c652325c5fc51, 0xa80a4db256f8174, 0x2796a20d77a6fe08c5⟩,
  ⟨0x1b20c1495afeb5d, 0x51ce2b1ec41d25ff2, 0xd20ce11eecb61d1, 0x2796a20d77a6fe08c5⟩,
  ⟨0x3ec7fd30078cfd7, 0x97748c0a4f19877a9, 0xa13cc0eb7df923, 0x184f9466724189076⟩,
  ⟨0x61a941b2993d60f, 0x178f60c02487aed815, 0x547c356a4552062, 0x1461a75c0bcf154867⟩,
  ⟨0x133844c4e3316f6f, 0x3b59591de9bed0db9b, 0x2a3e1ab522a9031, 0x8270fbe6b1fa21cf6⟩,
  ⟨0xabeccf2b1ac204a, 0x1a8b615cbc5f1a600d, 0x17f2354b4c80f13f, 0x3b27a05668dda2d3e5⟩,
  ⟨0x7ca969eafda6f28, 0x1ecba922b2b994dbdf, 0x7f9aee18a90077, 0x1f85cdcfa79186af1⟩,
  ⟨0xf36fcb7aa49adc, 0x301c0722c96904dab, 0x3717671f5f19d2f, 0xae333e6167af1f96f⟩,
  ⟨0xda86a9e0f14f58f, 0x228c9767e5ffd8c9b6, 0x4280a4a91ed1154, 0xa839cfc9323182959⟩,
  ⟨0x69b271b56cbe67bf, 0xd5e5fb20882f44508c, 0x10a0292a47b4455, 0x21a5298ea3a380845⟩,
  ⟨0x7a0806279813daf, 0x18b2057d09ae5efc31, 0x5320cdd366855a9, 0x10d294c751d1c04228⟩,
  ⟨0x31a1f144256ee22a, 0x80908b5f441f6c43ed, 0x866b02d2262ba7f, 0x15c2fc46ba27d34165⟩,
  ⟨0x7d20c5523b99ce3, 0x1034c4731fa357d80d, 0x8c9c81276d378e7, 0x123622bc3872df1c7e⟩,
  ⟨0x38c1fc392b31bf0, 0xbc2fe303d9fc1ea2d, 0x4c1ca703a936ef5, 0xfc5bac26f3ed0730f⟩,
  ⟨0xaf702067b4cdfd9, 0x1d1592df15ab830a4b, 0x687da5203ecfced, 0x115294aed80bc1201e⟩,
  ⟨0x8bf6e2c3f9cee63, 0x12900fd25f161b442a, 0x2632353ba8d8cc48, 0x510d50eb9dcec66aa5⟩,
  ⟨0xcb895b10a1ec33d, 0x2b30bc0baa5095f7ff, 0x59365ca1fb45e38, 0x12ee4a6ff9bf183953⟩,
  ⟨0x47f8052462285d85, 0xc37a7cb50827a824c6, 0x164d97287ed178e, 0x3c942166526380b77⟩,
  ⟨0x15b24dbc3fd5fd53, 0x2f2513f72c3cde1719, 0x37c1f9e53d0bae3, 0x792842cca4c7016ee⟩,
  ⟨0x246c5c3bd80a84e, 0x7ea1cc213967c666f, 0x1840ef62db959f59, 0x545277ac8d26f5eabd⟩,
  ⟨0x5b0ee6959c1a4c3, 0xfd43984272cf8ccde, 0x8249d9ae229a924, 0x16a6079bb6a34dce7d⟩,
  ⟨0x546669e89e40aab, 0xbbcbddc6ab2c5cbe5, 0x273af3188680461, 0x574a4dfa5f844014c⟩,
  ⟨0x588fb7d4bce8afa, 0x13b49fedf8f5a41e3b, 0x41f9fc6cb1087d5, 0xeae258a28606f7c27⟩,
  ⟨0x108cb8c987d6e021, 0x2f2295943827775152, 0xad91041294a12c, 0x1ee556e118f0bc537⟩,
  ⟨0x108cb8c987d6e021, 0x25b544769352c5daa8, 0xd8f5451739c977, 0x1ee556e118f0bc537⟩,
  ⟨0x380763e908a60ef, 0xcc41b44f2a8a76ace, 0x75f168a92e00910, 0x1adf7e9fb2392a3511⟩,
  ⟨0x52926da7c5cbf9a, 0xf0d124e609c036d13, 0x206daa95d9da5dd, 0x5e93628a8ce9363ff⟩,
  ⟨0x154928299da6d36d, 0x31a9bfeb1399a43b27, 0x25b005daaf394438, 0x57ee5f3076830b7343⟩,
  ⟨0x8b67cdef6d943cd2, 0x20868849c75eafeadc9, 0x4b600bb55e72887, 0x11961309b14d68b0a7⟩,
  ⟨0x43aeeba2d0687c7, 0xca21dece402df58f7, 0x178e03a8ad83caa3, 0x46584c26c535a2c29c⟩,
  ⟨0x90fb3f5cd25d87e, 0x15a6212f7d0c735c4d, 0x2a474215bae8448f, 0x65027098db4baa223f⟩,
  ⟨0x8af8de4e5365ae8, 0x2133dd645172775f53, 0x548261cb671e76b, 0x1430c9f5514cdeb28e⟩,
  ⟨0xadb715e1e83f1a2, 0x2133dd645172775f53, 0x31c42a37d2450b1, 0x9830ee363f3671561⟩,
  ⟨0xe55a26f79b06dd2, 0x2311bdaec6e291d233, 0x444fda9463324c1, 0xa71ff089eab744ed1⟩,
  ⟨0xab659fd65621720, 0x29eea313b4aba68227, 0x38b88c5a889e037, 0xde071bb158ffea6cb⟩,
  ⟨0x47d3ab8637fb121, 0xe0ed3a95b26fe9575, 0x8e6b5c45b3aebc7, 0x1bdfcf6a5984a7ecb2⟩,
  ⟨0x7d636d7932e585b, 0x13a1fd2506a7ecf7ff, 0x8e6b5c45b3aebc7, 0x164ca5eeae03b98a28⟩,
  ⟨0x2883b0ddd9f7720e, 0x51329d5dc1fb807225, 0x441fbb320324db, 0x88882854abf5b6d5⟩,
  ⟨0x3aacf84f4ae6cc4, 0xbc2748cc5f43ce3d7, 0x1549ea7fa0fb847, 0x4444142a55fadb6a8⟩,
  ⟨0x495836631da07f5, 0xbc2748cc5f43ce3d7, 0x69eac6bce41d16, 0x10fb67f8fe87ecaf5⟩,
  ⟨0x230470169b3fcb5, 0x47dd6eb98cccbcc25, 0x56958f3aba24221, 0xb1b1ad6516a952e34⟩,
  ⟨0x3af8cc066cbc3bd, 0xc1a449793a4aafd8f, 0x1d433a23df5bae, 0x601669f487a29785⟩,
  ⟨0xd45871e5c5f170b, 0x22dcfa557f941f1cb7, 0x5ba88c658f8860c, 0xf0c71b0a11d173799⟩,
  ⟨0x11916db31f197b94, 0x24eb72e19387f39ebb, 0x7292af7ef36a78f, 0xf0c71b0a11d173799⟩,
  ⟨0x1dcaffdacf40821, 0x642d4d38519f33f53, 0x287ab6f1ad256c4, 0x881bf86b5e93b002b⟩,
  ⟨0x13ac521e63f7270, 0x34eb727dfb2e9ff6d, 0x329964ae186ec75, 0x881bf86b5e93b002b⟩,
  ⟨0xdca74d74a72d5e7, 0x1dad66195a24b66532, 0x415aa244e368249, 0x8ca3a507e25eecc97⟩,
  ⟨0x9526d1864487fdb, 0x2018c997d35014f466, 0x1d9a644db215743, 0x65ed6d204fa903d63⟩,
  ⟨0x48b70072872e3, 0xc84b2bee240c04b, 0x949563855f79a15, 0x199464ad91aec27622⟩,
  ⟨0x16b93023ca3e6f, 0x3212cafb8903012c, 0x23cbf39f37dc4cf, 0x4ee1be1e160ca701d⟩,
  ⟨0x20eb7a8dd519272, 0x74115a999e48738ab, 0x3c1f5605ce275a9, 0xd3fa509d9c2ae8c79⟩,
  ⟨0xe0602acda2dafa7, 0x278e0aab6220b6e559, 0xcfea6d86b84e66e, 0x24a7353457c54d9b7b⟩,
  ⟨0x1075bd46ea8c939, 0x252445f3b7c543b18, 0x10c1fe78bdba84a6, 0x25d05763f58377b907⟩,
  ⟨0x5bb895cd56bceff, 0x14b260a6242bc6d7d6, 0x606e8782b7bbf70, 0x15c27f7c4850595761⟩,
  ⟨0x73d437ae04abedb, 0x14e8cd375e997dbe25, 0x788a296365aaf4c, 0x15c27f7c4850595761⟩,
  ⟨0x8d40d0517d17a3d, 0x14662f0e05922d2f01, 0x4b5f1b560ff071, 0xae2837215f161430⟩,
  ⟨0x2222b7a70706273, 0x7e335ef8e7ad60aba, 0x83405f0e0b131ad, 0x1e53dda2f82a45764b⟩,
  ⟨0x2222b7a70706273, 0x64f5e593ec8ab3bc8, 0x8a766d144893442, 0x199856e00913c50975⟩,
  ⟨0x2222b7a70706273, 0x50c4b7a98a088fca0, 0xbe25642cde3b28c, 0x1c1e7c9d55640987c5⟩,
  ⟨0x9ca4d0b264e5914, 0x2510457bfc249010c3, 0x2f89590b378eca3, 0xb3f650bbbc19d6982⟩,
  ⟨0x56b28d37d0c82e8, 0x10692b88956f01248f, 0x19b13d7a7b75a4ff, 0x4dcfeb4019e477ef26⟩,
  ⟨0x3ad63a709cec0b, 0x8e8e22afab35fa05, 0x11ff3fa6ea634af, 0x2b9adc56e37ca407e⟩,
  ⟨0x3a0ed5380f9f1a, 0xe111a2b2a515a2e9, 0x328eaaef61832b7, 0xc3fddfdc4e6eb4723⟩,
  ⟨0xc05f46e8b9715af, 0x2549a9895384a92447, 0x1a2f90cc9100122, 0x5135c52d8e3c8d6a3⟩,
  ⟨0x4c8bf6daeff89fe, 0xbdea60538df97f421, 0x4176e9ff6a802d5, 0xa26b8a5b1c791ad46⟩,
  ⟨0x329cbd7fb759809, 0xc8e9e91d54f9a76df, 0x2787b0a431e10e0, 0x9cebc5f638f906be7⟩,
  ⟨0xbe2ac870deed60a, 0x25beb72ea21b61806b, 0x77ca329f0ea3591, 0x17c6b9c702d578f629⟩,
  ⟨0xca852fa42e83b50, 0x202851d1fbff6ae2b7, 0x842499d25e39ad7, 0x14fb8718afc77da74f⟩,
  ⟨0xfd267b8d3a24a24, 0x202851d1fbff6ae2b7, 0x842499d25e39ad7, 0x10c938e08c9f97b90c⟩,
  ⟨0x9b6f5f3263c3374, 0x1f97783f237f82a95d, 0x5915c0bc1275c5, 0x121b325b0ffd072b4⟩,
  ⟨0xc24b36fefcb4051, 0x1f97783f237f82a95d, 0x53490ba4f308f7f, 0xd8abf6a9bcc749f82⟩,
  ⟨0x7ce6265600c4c5d, 0x103f21dd5c8a03df51, 0xde132cf6eae7767, 0x1ce315cc62c1f3698e⟩,
  ⟨0x7ce6265600c4c5d, 0x19fe9c9560dcd2fee8, 0x1d829a8f12247cf, 0x6244cc9ae00baca83⟩,
  ⟨0x91795aa3295d3c, 0x1838ad8115eed5313, 0xb7eb5b74250dbfb, 0x1e9f5e86fd7ea07658⟩,
  ⟨0xb5d7b14bf3b48b, 0x1838ad8115eed5313, 0xbc7726493e58a99, 0x191a8328d1be78e64e⟩,
  ⟨0x36f1f881e61b77, 0xbb5bc67e75d40d9f, 0x2e8608cf6103452, 0x9ea436d0f95ee6fbb⟩,
  ⟨0xd5911f7e771ad0, 0x246989868e6b7b565, 0xdf17a5c5ae1594d, 0x26094b9d66619a8a9e⟩,
  ⟨0x356447df9dc6b4, 0x7484eb482e24bde1, 0x4802b2e4622e483d, 0x9d26e491b381fe5323⟩,
  ⟨0x42bd59d7853861, 0xe909d6905c497bc2, 0x24155f0d24f24ea2, 0x7dfea034ee1d47e7a3⟩,
  ⟨0x14db2c1359a19e5, 0x3a4275a417125ef08, 0x81bc108d6ea4e55, 0x16a66ae501d040a09b⟩,
  ⟨0x30136531dee2701, 0x6b6f9ca5ad3f07c57, 0x118534d2e36eb68f, 0x272730e9d0daec2698⟩,
  ⟨0x3e2082fd9733d9f, 0xde237833c19c3ad42, 0x1affb8804a68514, 0x60893e491291c6d79⟩,
  ⟨0x47660e16a7027c29, 0xcc3b5d742d783c924c, 0xa2761f82f075a94e, 0x1d0b63eee45fdbacacf⟩,
  ⟨0x3e08146cbe720e09, 0x8df34589b141de7e9c, 0x4ea80d5689c2c3f, 0xb3fe7346235d9ee0b⟩,
  ⟨0x8673cdc39878a0, 0x1ec479bc6cc38d0d9, 0x7d7deda81494ea9, 0x1cb78e23d6b21f44e2⟩,
  ⟨0xa810c1347e96c8, 0x1ec479bc6cc38d0d9, 0x7d7deda81494ea9, 0x16f93e8312281903e8⟩,
  ⟨0x8fdfc2c9d26d687, 0x15122fdc8b3dfd2783, 0x82be73b1b889a0d, 0x1325e840c471c456aa⟩,
  ⟨0x1b4681d36ae66995, 0x66431bf7ad6d7fb3d7, 0x1f0b73096ae5ef4, 0x7464e945a04a9927f⟩,
  ⟨0xea9db1797790063, 0x2bfb4a8f83728dfc7e, 0x26ce4fcbc59f6b1, 0x7464e945a04a9927f⟩,
  ⟨0x144b113f4db9777, 0x30b1a43e6f14c0cce, 0x56de3eddc731cff, 0xd071006c090ad1e97⟩,
  ⟨0x10be74848b44c327, 0x4048a92a9e07e4ad94, 0x85265b3cf2f0b1, 0x1ff3126f8531369f5⟩,
  ⟨0x3469a0178280b94, 0xa0fa9d1f726df5b2d, 0x926f3cb210eca9d, 0x1c1c183fcf9a0c5e2e⟩,
  ⟨0x4184081d6320e79, 0xa0fa9d1f726df5b2d, 0x783a6ca64fac4d3, 0x12769c45766bb08d46⟩,
  ⟨0x2e6f9d30ecb34d3, 0xb68e8d62bd439902e, 0x4b61288d9ced7222, 0x128582d66305924b099⟩,
  ⟨0xe82e11f49f8081f, 0x2da3a358af50e640b8, 0xe7dd366d10a8d4c, 0x2d93be79d51328a981⟩,
  ⟨0x3a9904aa61d98f9, 0x936fab021669de0a5, 0x739dbfaef97cbd3, 0x122e61e4d9d645646e⟩,
  ⟨0xd9c4756fb22bdff, 0x1b655c94fb3ce34513, 0x9f2b70c55052506, 0x14062da1ad5131c48f⟩,
  ⟨0xacba6c504c8365b, 0x22c48b88492894c597, 0x722167a5eaa9d62, 0x16f90d3632e2abf7f7⟩,
  ⟨0x3a9904aa61d98f9, 0x96f9841ab6b20a480, 0x715d3f3a346783e, 0x124141155d2d1ba5b7⟩,
  ⟨0x39a3d223be06a8c, 0x76ce384f0cd78fc8b, 0x1c854947cbd16c3f, 0x3ac92cb98cc2a2410f⟩,
  ⟨0xe68f488ef81aa3, 0x2f85b01f9ebc9fe9e, 0x4ef4f91c3cc87107, 0x10463b876ff5ebdf87b⟩,
  ⟨0x480cc6acad8852f, 0xbe16c07e7af27fa78, 0x129d0b2c5c7bfaf6, 0x311b96af6c5a5bffe1⟩,
  ⟨0x69abc3fe3fe4e38, 0xdf086b9867f70c1c3, 0x94e85962e3dfd7b, 0x13a4a2ac91bdbe665a⟩,
  ⟨0x420b5a7ee7ef0e3, 0xdf086b9867f70c1c3, 0x6d47efe38bea026, 0x1710b371987cb9c91b⟩,
  ⟨0x12db64e19b2ba267, 0x32f1c0e4a57b9b4ca1, 0x36a3f7f1c5f5013, 0x939e160a365171d3e⟩,
  ⟨0x1d8c2d38739d5722, 0x3fdc62d25709220f2b, 0x36a3f7f1c5f5013, 0x761811a1c50df4a98⟩,
  ⟨0xa3a011564432ca8, 0x235d3ada28e52184dd, 0xc826a8cc7764de5, 0x2b422a2c66c5bf1f7e⟩,
  ⟨0x5631758a7ff4041, 0xee730a780a2960737, 0x7656a021554b791, 0x14760a32a8428b7da6⟩,
  ⟨0x2075d80d34a74961, 0x47d7079cf350a7549d, 0x8094aa5b555dd4, 0x11c91e8a186644ae3⟩,
  ⟨0xea91b723ce8df7a, 0x33e9f958ce3a2a0075, 0xa0b9d4f22ab549, 0x23923d1430cc895c6⟩,
  ⟨0x2b9301d23fa27f1, 0x7b706e37262b14c5d, 0x896016302c9da4f, 0x18529d0bf0f884efd2⟩,
  ⟨0xe22fde0307502d0, 0x2009a3ef635b363c2f, 0x1a9c42e5b6d89f, 0x3c4e79eb90169bbf⟩,
  ⟨0x36e233526666815, 0xc702a697ba457ebae, 0x567bb76f7e2b9ad, 0x13997985e7b6de5081⟩,
  ⟨0x2efbd24b20753af, 0x884abb51a195ea861, 0x567bb76f7e2b9ad, 0xfadfad1862be50d34⟩,
  ⟨0x215de26ea7a8357, 0x4d6ee1aecdaa72451, 0x257400156bd23114, 0x56ea91ccb8f4d7ea65⟩,
  ⟨0x215de26ea7a8357, 0x7be49c4ae2aa506e8, 0x165d90f9ee261d01, 0x530b6cea61df8566f1⟩,
  ⟨0x215de26ea7a8357, 0x631d49d58221d9f20, 0x1c7a6cc2244e4517, 0x5497e211b7e80cceb9⟩,
  ⟨0x24d1e55dce385273, 0x577f5d38e05a02a294, 0x69923a6ce74f070, 0xfae02b0dff4630985⟩,
  ⟨0x1a675a2bee95a0a0d, 0x64644b8832cfda4a141, 0xd32474d9ce9e0e, 0x322cd569330e09b81⟩,
  ⟨0x1e65d84bea782789, 0x5c7666499f1b90e851, 0x20fdb2420848b23, 0x6459aad2661c13702⟩,
  ⟨0x5eb920362e7a1a7, 0xe67fc148244b596e6, 0x231dad89fd78b04, 0x55737500ba127a291⟩,
  ⟨0x148fcb811ad8e10c, 0x500e3f08a051499ff9, 0x8c76b627f5e2c1, 0x222e2ecd173a9743a⟩,
  ⟨0x180e5a3ee9ad710c, 0x4aedb803766ee622a1, 0x8c76b627f5e2c1, 0x1b582570df62129c8⟩,
  ⟨0x7a8fab2324d0486, 0x13165d9e6c64e404cd, 0xc23eccf5b152dedb, 0x1e4052dd4cdb2c91f25⟩,
  ⟨0x87a3daaa752cfa, 0x21cc7c501e82e79df, 0x1a825c476745947, 0x69b0641f59758795c⟩,
  ⟨0x139cdc63b120e5f, 0x3e8e0c3c9c7d8e011, 0x87b548f2e6b8287, 0x1b0d76944a6e6a0cca⟩,
  ⟨0x7e4c0a32ca733dc, 0x142427e9900a188157, 0x87b548f2e6b8287, 0x15a45edd085854d708⟩,
  ⟨0x16e23998be546bf3, 0x2eb649543093633f41, 0x68224666341b590, 0xd4910b55044a55ef5⟩,
  ⟨0x33c681a23c4da835, 0xa919e2ec7d46c0dd4b, 0xd0448ccc6836b2, 0x2a8368aa9a7544631⟩,
  ⟨0x19470d6784d8ab15, 0x420bd3a4ff84b42e67, 0x208ab5fff0488bd, 0x5506d15534ea88c62⟩,
  ⟨0xbe99aa1de82a2cd, 0x18e680b650c796d7b9, 0x1614f381d9994e7e, 0x2e28350b9e02390941⟩,
  ⟨0x6f907078dafdc7, 0x1751e8d349ec8427a, 0x1b62682a1392233a, 0x5b95dad0a1b50df145⟩,
  ⟨0x22dd2325c46f4e3, 0x5d47a34d27b2109e8, 0x4e29010650b12cf, 0xd11f0fa2fb5650dbd⟩,
  ⟨0x2db01a9de77fc5e, 0x61cacb8216e2808b1, 0xecdf3fd04d516df, 0x1fb029a5e2f2e42699⟩,
  ⟨0x7238428ac2bf6eb, 0x1872b2e085b8a022c4, 0x1ea9bf5162a47fd, 0x69030bd6c8c99a059⟩,
  ⟨0x8b5340b67eaf72b, 0x17db7c5cb5006a5bbf, 0x178328086cc00e0a, 0x406b0dd4e1bc6fabdf⟩,
  ⟨0x2a03d43ca05c4bea, 0x5c16ba06ef428a714f, 0x1862ffc673a87ed, 0x357376be4bf1efdad⟩,
  ⟨0xb440d0d5bb456f1, 0x2782105916b3835eaa, 0x9717e7dafec7f49, 0x211de5dc1e563da609⟩,
  ⟨0x247323396b9cd92, 0x6642a7cf85d45b8a1, 0x8fcdad9c4fa895f, 0x193715ca4cff235fe7⟩,
  ⟨0x7576c2d5ee585a6, 0x107a33344a5ced7897, 0x8fcdad9c4fa895f, 0x142c116ea3ff4f7fec⟩,
  ⟨0x3abb616af72c2d3, 0xd2e8f5d084a5793ac, 0xdfcda2139cf3dd5, 0x323b0e630e3660ae99⟩,
  ⟨0xbc1903b593605d0, 0x21c604ee782a4a9321, 0x5289205452e3d81, 0xed1cc68cf2b36d792⟩,
  ⟨0x10ea22409e644351, 0x26dfdaac391134555c, 0x132250370d44ff5e, 0x2bf9b069f9f81e1797⟩,
  ⟨0x81321b32641d684, 0x1db159f0443e5c5e25, 0x2382df66ee0bc0d, 0x82955fc67d7dc69f8⟩,
  ⟨0xa17ea1fefd24c25, 0x1db159f0443e5c5e25, 0x336589a550466c, 0x9732cd1239d10ebf⟩,
  ⟨0x339f1a7725a911a6, 0x797ceb09fe69ccbc69, 0xcd9626954119b, 0x1e3d5c36d85d02f3⟩,
  ⟨0x62394a7d267b42c, 0x171dc967db3b206e97, 0x403eec0ea45807, 0xf1eae1b6c2e81798⟩,
  ⟨0x663d393e10c0c33, 0x133fc36e0e64d39e8c, 0x11e2d47dbd2e8f95, 0x35e144505e582e0b99⟩,
  ⟨0x663d393e10c0c33, 0xf6635f1a51d761870, 0x17f47e8224bd3687, 0x39bad1ccc79f8b91b5⟩,
  ⟨0x96350d8593baea0, 0x2432e0a97fc16518fd, 0x4642abb90ec4a95, 0x10eea4be0dcda23082⟩,
  ⟨0x4d7db09bb18cbb, 0xef09455b42737cca, 0xad3abfc9c75f417, 0x2165c4d96dfa0aa29f⟩,
  ⟨0x4d7db09bb18cbb, 0xbf3a9de29b8f9708, 0xdc2b54038589aa9, 0x21f530cfd7eeb653e5⟩,
  ⟨0x1e8c536685a0b4a, 0x789ddfaa764e74169, 0xdc2b54038589aa9, 0x36551ae6264abd5308⟩,
  ⟨0x4c5ed0804e11c39, 0xf13bbf54ec9ce82d2, 0x572c6b74de8c4dd, 0x1135b8c5aae15a9391⟩,
  ⟨0x2eac028c3d941d87, 0x75f06e7affae372aca, 0x547904b7ba6dab4, 0xd5761414315f93f81⟩,
  ⟨0x2ab65653a0d6f980, 0x5658b7a1a44afcfc21, 0x699745e5a909161, 0xd5761414315f93f81⟩,
  ⟨0x3bb13bcc095932d5, 0xc113c1abbcfac6f829, 0x1e79f2aff7e77283, 0x6293b5e0508777fc12⟩,
  ⟨0x569d3e92aabe4cb, 0xe02030f9d98783271, 0x1120f7b5d5a4448b, 0x2c52ae72cb819464ce⟩,
  ⟨0x27c0af5ffedccdb, 0x524acf8a81827517b, 0x1120f7b5d5a4448b, 0x2375585bd6014383d8⟩,
  ⟨0x7f9e3bdf01239bd, 0x1a6b152fc218e96d63, 0x191adb73c5b67e48, 0x5326d5c2b21aef0d23⟩,
  ⟨0x85fca70924c91a, 0x16307a2ee34c8b74d, 0x773e716e6ed70a3, 0x13bf6fb679df2539cf⟩,
  ⟨0x1498352ba39b8bb9, 0x2ba7f655be5ca49985, 0x3db72b535bfea98, 0x82d2e366063d0a22f⟩,
  ⟨0xb77e0460f40ffbc2, 0x26e57ed5fb984905b7d, 0x7b6e56a6b7fd53, 0x1a2a2d7ace0c353a3⟩,
  ⟨0x2021b872ad884b33, 0x572f1510f2af8438fb, 0x26927b14197f29f, 0x68a8b5eb3830d4e8c⟩,
  ⟨0x29bd4cdd7cc30e7, 0x5a9a2f28704027e03, 0xc0dc67647f7bd1b, 0x1a2a2d7ace0c353a30⟩,
  ⟨0x517fd69d1b7bae1, 0x11b0d5faebd81020dd, 0x23cd0383e2a3c20, 0x7c56a5c8b681c727f⟩,
  ⟨0x754cda20fe1f701, 0x145e99df9299bd42b0, 0x361da3b4bce28c2f, 0x965b9f798d9c49454f⟩,
  ⟨0x3d5c84a2ebff90f, 0x88643efe9dfae2941, 0x37f0557e121fdf2, 0x7c56a5c8b681c727f⟩,
  ⟨0x6fa9db3a725360a, 0x18d1f23c5f2778c501, 0x48a282700397afd, 0x10251c622f2fe0aa66⟩,
  ⟨0x1639c3f7a44db15, 0x3f3c211c04929755e, 0x2a01f40efa12fec, 0x7784687ff38488fcb⟩,
  ⟨0x403bb8069e60b01, 0x9233a1499345b3754, 0x5392cd19718257fb, 0xbe38d023f74f68e25b⟩,
  ⟨0x230c2dc048a2947, 0x7fa297beb5b83a27a, 0x8f0f353067a06df, 0x208fd3946f23ab0c13⟩,
  ⟨0x18742f3a1a928993, 0x473e82e3b37b1a6610, 0x1b00c1dc07bf766, 0x4eabb9e80c1a17b85⟩,
  ⟨0x11b63efdbedc28d5, 0x29481c2a635be19d2d, 0x15ee5d4820121354, 0x331d936764df249437⟩,
  ⟨0x328ae93210481d7, 0xbc7b6735ed218b80f, 0x4d9dace349d37aa, 0x12171678aefc09b013⟩,
  ⟨0x5de096035af301, 0x11811493621a18ccf, 0xc20a30383890b29, 0x242e2cf15df8136026⟩,
  ⟨0x5de096035af301, 0xe00dd42b4e1ad70c, 0xf6f3434e6ef8434, 0x24d637507e72a7816f⟩,
  ⟨0xa90321818b91223, 0x28566ea12bab12dd9f, 0x1bef63b9b307706, 0x6aaccccc3720c0773⟩,
  ⟨0x5b7d69af328a6d3, 0x1177eecfd22809f3bd, 0xa153e2ff721d062, 0x1ecd8869590c2202a3⟩,
  ⟨0x5613ad9775cc782, 0xd25e134ff78d79539, 0x23f7912ad88e17f9, 0x57e6d33cb109f32fb8⟩,
  ⟨0x270b8c36781a1f6, 0x98adc68b763aee845, 0x891a198db64aed9, 0x2181cc028f1c00845a⟩,
  ⟨0x19adc9dda10f148f, 0x50547c5c8010b75e1e, 0x4e4fefd4792bfea, 0xf4fb0e2c452566365⟩,
  ⟨0x219b3efb135083ef, 0x541a844b2a85becb43, 0x2727f7ea3c95ff5, 0x61fe05ab4edbc27c2⟩,
  ⟨0x690f01fc9fd1904, 0xd2560a568bf4edd99, 0xc3c7d7932eedfc9, 0x187f816ad3b6f09f08⟩,
  ⟨0x48d47770ec3d8c2, 0xe94c6f233c572f421, 0x3a7e4b0adb88683, 0xbb5fa589db92ac711⟩,
  ⟨0xb2c705dd70998b7, 0x1ca259c2f10a0cafcf, 0x3a7e4b0adb88683, 0x95e61e07e2dbbd274⟩,
  ⟨0x1e122eb4a54448d, 0x3da64c6e3c5a9c5df, 0x1bad260bd83ff750, 0x38bd7f646b9340272b⟩,
  ⟨0x4ca11519a08a30, 0xfb5c3529c178d7c1, 0x87fcb5926c3b831, 0x1be11197a0e8e3a7b5⟩,
  ⟨0x8cc6c6e40644261, 0x1716be3d6eeeb065f8, 0x1a057bf061241a67, 0x4448de83230a985a27⟩,
  ⟨0x9144372086ac3ee, 0x130f691dd83308d307, 0x89c87c1105fec03, 0x12140ce8ae718ffb46⟩,
  ⟨0x16b2a89d150ae9d3, 0x4c3da47760cc234c1c, 0x1049982030aa283, 0x36b568a4dbcd16d81⟩,
  ⟨0x36250c2be6accce, 0x917eb85543b5ae3b7, 0x516ff8a0f352c8f, 0xdad5a2936f345b604⟩,
  ⟨0xbdba10f8c0ac62b, 0x197dc0f64c54c93128, 0x1b2eb9457ffe314, 0x3a6f4f5d1ef09b4dd⟩,
  ⟨0x690e8df6705583d, 0x169593beee39a6c70b, 0xf4178383c0a8c53, 0x34791169805160f7d0⟩,
  ⟨0xc0581254fc95161, 0x211430d407e386f89b, 0xf4178383c0a8c53, 0x29fa745466a780c640⟩,
  ⟨0x395c74476b3bc7b, 0x7e4516e30b239b4db, 0xf4178383c0a8c53, 0x219529dd1eec670500⟩,
  ⟨0x13625a74ca2d8862, 0x4445e9ee1b9d705079, 0x175761e78aad9fb, 0x5235e7c960ba2a9a1⟩,
  ⟨0x132ef5104e04125, 0x360d83673083789a3, 0x74b4e985b5641e7, 0x148d79f2582e8aa684⟩,
  ⟨0xa9dcd63b84423cf, 0x17ee5228cb36c23027, 0xfc98c81bb8cc4f3, 0x23963ce282b770abbc⟩,
  ⟨0x2dc2eb6b3573219, 0xa50b6838cbc60be0c, 0x1cd40176861cbaa, 0x67f8f77f1227e1c8f⟩,
  ⟨0x1e1676133c40bf7, 0x56cff4c9bb8a651bb, 0xfc98c81bb8cc4f3, 0x2d8d1abb8898e22380⟩,
  ⟨0x73cd80a897a462d, 0x10b4d12a5bbaafacb9, 0x512ab2f10205087, 0xbb5a5224892c61286⟩,
  ⟨0x12ac7ab247d2039, 0x44f739a6bd9eedaf3, 0x1e9192341e98574, 0x70e55510911d9d7f3⟩,
  ⟨0xbd53cf0c9203557, 0x22f60b7adabbbd1149, 0x38e271736e1070a, 0xa811832f8f365ba4f⟩,
  ⟨0x1aea7b088da7c012, 0x3f9ea20a534bd6b2c9, 0x1c7138b9b708385, 0x433a34796c7c24a86⟩,
  ⟨0xcd2a0eb3acbb020, 0x307e563bce164e734d, 0x1c7138b9b708385, 0x6b9053f57a603aa70⟩,
  ⟨0x11415d2cb144d81, 0x34349198014169512, 0x3e7a5f39f0f220c, 0xbd065f1ef41fc0a57⟩,
  ⟨0x18eaaae012b12dc1, 0x3c4ebc2dbd584a7da4, 0x5f5a54351e73810, 0xe6ca06cbc1edae7ff⟩,
  ⟨0x24d5f566b67f9de1, 0x8ea661a522899a15d0, 0x3b9874a1330830a, 0xe6ca06cbc1edae7ff⟩,
  ⟨0xb9b81380196081, 0x23f5f0b42f4fdca57, 0x94fd2392ff94799, 0x1cd940d9783db5cffe⟩,
  ⟨0x398f6b06c2abac8, 0x8ea92080f63547813, 0x39154ff57d6930b, 0x8d7a7e312f2b1c6ca⟩,
  ⟨0x23f9a2e439ab4bd, 0x8ea92080f63547813, 0x6440e03a8f69f21, 0x18d8ef0e972eb5015a⟩,
  ⟨0x37e17672dde6ee1, 0xb1470a530a973d7dd, 0xc3bcb1c86a3b0e, 0x26cf630ab90f658b5⟩,
  ⟨0x12c3e2e409f8b26, 0x2f9ffbe795334211f, 0x31595eab5a91ec9, 0x7d3ec1fd07520d289⟩,
  ⟨0x39837c64bebc2e7, 0x74c5e1763a3561c2f, 0xa99c52aa5ce708, 0x1585e9a70fcedd9f1⟩,
  ⟨0x4176d044bb1702d, 0xd4aa1ab8d680d9906, 0x4816eb7f62b8092, 0xea30045fe64fb72f7⟩,
  ⟨0xeb5ad4284dd7f2, 0x263a7036c156cbfd1, 0xd1a4a7438087151, 0x220d4e92d4f4d06590⟩,
  ⟨0x7b356c34e658697, 0x1002933e27aa8ce871, 0x14cda137866df7e8, 0x2b406bb39ed4cd39b1⟩,
  ⟨0x7999111ca61d037, 0x1947fcf4b93bae2b99, 0x2b379d874d1755d, 0x8fc375f72cc8f870c⟩,
  ⟨0x5064e573a94fed2, 0xd5f264c8b614bcbf3, 0x7d9ff4d946b1827, 0x14e50e07a0a6f1e6b2⟩,
  ⟨0xa34e193d36fca9a, 0x15bac582cba412f507, 0x7d9ff4d946b1827, 0x10b73e6c80858e5228⟩,
  ⟨0x1dd54c40a2f25f0, 0x659f72313936c0bc1, 0xe543759537c96e1, 0x30cf4b38b91bc38d96⟩,
  ⟨0x775531028bc97c, 0x145316d6a50af358d, 0x4a7113e4b0b5ab4d, 0xcadc557362532977a6⟩,
  ⟨0x952a7d432ebbdb, 0x145316d6a50af358d, 0x4aca93c9729e826a, 0xa30cfb9df4d9571973⟩,
  ⟨0x2e9d4724fe9ab47, 0xa298b6b528579ac68, 0x7bf1da0b5934bb3, 0x1b0558d7c39541b311⟩,
  ⟨0x1b48226b67f432c, 0x4c213402b679fbbcb, 0x7bf1da0b5934bb3, 0x159de0ac9c7767c274⟩,
  ⟨0x221a2b0641f13f7, 0x4c213402b679fbbcb, 0x677bc03acb3d952, 0xe7041c9fcbaf32ae3⟩,
  ⟨0x6b4e0dec91740c8, 0x17f4684a538a32a279, 0x741fe878234ad21, 0x19ec733495e87a83cb⟩,
  ⟨0x754003071c7335e9, 0x14f09cec15a6ff0cffd, 0x741fe878234ad21, 0x14bd28f6de5395363c⟩,
  ⟨0x5b985895ff19acf, 0xd16253e69a37902fd, 0x2a037e2eeaf8fc74, 0x600ac919e2f1cddbed⟩,
  ⟨0x79ddc976a3b87d1, 0x1bdbbc44fdf3f034c4, 0x171817a28415ba6, 0x5477d4914cffdde67⟩,
  ⟨0x90f5e11927ce377, 0x1a829471a89cbe75bc, 0x65590e17b90244b, 0x1288c781e91e5d1945⟩,
  ⟨0x368407c1ca7eef7, 0x7f9ccefbf7e615c77, 0x4f8aa497019c4b5, 0xba31a6e6de5bd226e⟩,
  ⟨0x12fd3c96c7a5833, 0x471efd4be6d5ac035, 0xe866e7f6b614b8, 0x3666cb753bab1728d⟩,
  ⟨0x3f65ba8c8b354a8, 0xbdf4b21d91abcd3e7, 0x682c9ce273ecbef, 0x1382270e6f8573f721⟩,
  ⟨0xfd96ea322cd52a, 0x25fdbd391d225c3fb, 0x2b736d16ec272479, 0x68270e51021d6f484d⟩,
  ⟨0x7ecb7519166a95, 0x1e649760e41b7cffc, 0x3630957f60eb52f2, 0xcfd48a4480aa709c9b⟩,
  ⟨0x279f9497d7014e9, 0x79925d83906df3ff0, 0xd4cbfa54baf9f72, 0x28ce64ab473b003287⟩,
  ⟨0x63c604e93c3781, 0xf4e6146962d8a905, 0xad2c65bce3f8a89, 0x1a90ff0f3e901a5bac⟩,
  ⟨0x2156c14af18d963, 0x82ee54048abc273cb, 0x237fa10d0049d41, 0x8b699dd4640bf9f6e⟩,
  ⟨0xbcf6930d79f3fe, 0x251b032549eec795f, 0x5662f6524d69ab, 0x10f6939fb29fa5746⟩,
  ⟨0x62877320f4c229, 0xf7a6070181c3591d, 0xb0d2163ed29b80, 0x1bc6e4fa4b88ee767⟩,
  ⟨0x11359895fc75da9, 0x229a9deeb61db66d0, 0x9998b0ceef1d361e, 0x134d8a7f6350041eec7⟩,
  ⟨0x11359895fc75da9, 0x375dc97df02f8a480, 0x604444e3ad64193d, 0x135b61f1c2cc10017e7⟩,
  ⟨0x560bfaedee4d44d, 0xdd7725f7c0be29200, 0x17cc3ad693672ee5, 0x3d400d4da926017d7b⟩,
  ⟨0x626a093d0a911f4, 0xcaa319c570dcaba81, 0x86fdcaee87cefa5, 0x115f34a8eb062a187d⟩,
  ⟨0xcad0b22b326f082, 0x29c297457b89ac7ab3, 0x4fcc269ee539a11, 0x106e340ccd6e1705b1⟩,
  ⟨0x85d2a4c7a734589, 0x160b259c850590da45, 0x4fcc269ee539a11, 0xd24f670a458126af4⟩,
  ⟨0xc81d2bdc5bef4bc, 0x1a5ed9ce8dc1cfbab7, 0x424a8714b4baf33, 0x8bc5551568a28a5b3⟩,
  ⟨0x3596001d917da1fe, 0xb4c5b869dc9b8bdf17, 0x2bb2882e5040716f, 0x9369cd8d7004ced304⟩,
  ⟨0x16fb3df7d7c6057, 0x3e05b59bc95c6e1df, 0x2bb2882e5040716f, 0x75ee3e0ac003d8a8d0⟩,
  ⟨0x16fb3df7d7c6057, 0x319e2ae3077d24e4c, 0x36433d4204f175b5, 0x7527c55f33e5e4153d⟩,
  ⟨0x72e835d736de1b3, 0x18cf157183be927260, 0x1ef6895f91a6991, 0x6af5f666b0d5790a5⟩,
  ⟨0x581266e207a940, 0xf364a60d514f267d, 0xb0d548965a2b4d5, 0x1e8b1031e17a9adc88⟩,
  ⟨0x160499b881ea50, 0x30adbacf76a96e19, 0x3808d01678bec4f9, 0x7be25c58d116605101⟩,
  ⟨0xdc2e013513272, 0x30adbacf76a96e19, 0x380b90a9afcf0243, 0xc640b68044d522646d⟩,
  ⟨0x226730304afe1d, 0x615b759eed52dc32, 0x1bedb34cb61968da, 0x4f08ef60f91586f46f⟩,
  ⟨0x70ca06b45abd945, 0xff587a8d7c9a288f7, 0x772aa32eaef27704, 0x10dc8945fd8ae7fa79f⟩,
  ⟨0x2ba3ca6584f504c, 0x9e13429cd6a0a3589, 0x1dcaa8cbabbc9dc1, 0x6be9d4f32378ffdca6⟩,
  ⟨0x368cbcfee63245f, 0x9e13429cd6a0a3589, 0x1bbefb4ee9812188, 0x506724a96dedf9c399⟩,
  ⟨0x34aa49c10c924bb, 0x7a175dc0a354cf2f7, 0xa76b1d7865d6c65, 0x1841e4ef213d8ef036⟩,
  ⟨0x19279cd9de45297, 0x5d4dd9dd47182574f, 0x7065c3aa093c81d, 0x1a0e7d2d5701598bde⟩,
  ⟨0xa2b4fd5dc5c6d4b, 0x1e2cf9ed99837e9530, 0x93bbb471b9b416, 0x1b660dd91ef5d4dfd⟩,
  ⟨0x4131f6f27293b7f, 0x9ac42c27118b001b1, 0x17155431c504237, 0x36cc1bb23deba9bfa⟩,
  ⟨0x36aace42472fd2d, 0xcfa37342fa9eaa6d2, 0x5303b6cc21e5e8d, 0x13b4ed611219dfe7ed⟩,
  ⟨0x36aace42472fd2d, 0xa61c5c35954bbb8a8, 0x5a19f0ee98936e5, 0x111c7bf03bc4b0f9c3⟩,
  ⟨0x118adb5b6ab2d9b6, 0x2aa4ab165adf1676d9, 0x513e2843843a877, 0xc57d850cf53c2edfd⟩,
  ⟨0x49dedf3dc5b357d, 0x11f4fa74bc37909adf, 0x33b1cef79b8c645, 0xc90f5ec33a2fe0ba2⟩,
  ⟨0x44539b2c3b299af, 0xd49944214db899273, 0xf596185937f5bb6, 0x2fc24c7fcad993ba8f⟩,
  ⟨0x21444135e7aac705, 0x52ceb69bce9e73e81f, 0x1b3bb8803068a16, 0x43ca0cbed06e68455⟩,
  ⟨0x6d3cc367744f8ee, 0x1b3101873a02853d2f, 0xb15210a7ed55225, 0x2c2384b6ee1e1f4e83⟩,
  ⟨0x11117e882a2c6e53, 0x3662030e74050a7a5e, 0x73f8392dd3be74e, 0x171802310472f3f871⟩,
  ⟨0x375ae2956c97e898, 0x8d18d5fb2177d0ea27, 0x39fc1c96e9df3a7, 0x93ccdad34fac7fcfa⟩,
  ⟨0x2bd34eb8c16c392d, 0x595defcac5950a94af, 0x39fc1c96e9df3a7, 0x763d7bdc3fbd330c8⟩,
  ⟨0x10f8c4105add873c, 0x375f75c8400ea58117, 0x39fc1c96e9df3a7, 0xbd2f2c93992eb8140⟩,
  ⟨0x20163a70bd6ec400, 0x53c022de63d5a78417, 0x39fc1c96e9df3a7, 0x9758f076142560100⟩,
  ⟨0x8058e9c2f5bb100, 0x10c006f9472abb1a6b, 0x121ec8ef2915c243, 0x25d63c1d8509580400⟩,
  ⟨0x50379219d994ea0, 0x10c006f9472abb1a6b, 0x101d65481d3ed603, 0x35d6c3cb85310ec8a2⟩,
  ⟨0x644576a04ffa248, 0x10c006f9472abb1a6b, 0xd9ba8b74e722eb3, 0x245f003f1ae2f42f8a⟩,
  ⟨0x7d56d44863f8ada, 0x10c006f9472abb1a6b, 0xd9ba8b74e722eb3, 0x1d18ccff48b5902608⟩,
  ⟨0x84c4e78a7844275, 0x1c638c2c310cf4c33b, 0x15e7f72ff5f67128, 0x4af1a0f7d895db667b⟩,
  ⟨0x84c4e78a7844275, 0x16b609bcf40a5d68fc, 0x1b61f4fbf3740d72, 0x4af1a0f7d895db667b⟩,
  ⟨0x2e7a273554e7e31, 0x65c3597fca170e562, 0x10635080a2d4e8db, 0x23e1c315ed229179e5⟩,
  ⟨0x163295674d71e53d, 0x4dc37d3ca3d5853aa8, 0xf58d24d45d2dc9, 0x35c3a0f97d93fc1f3⟩,
  ⟨0x1b81d777ebb7131a, 0x4d17719febdd454711, 0xf58d24d45d2dc9, 0x2b02e72dfe0ffce5c⟩,
  ⟨0x47a9501e804d250, 0xa0ab9d3d5d0a7d7e5, 0x94656ba0dd6b73d, 0x14cb739f5554a71155⟩,
  ⟨0x2cc9d2131030372, 0xa0ab9d3d5d0a7d7e5, 0x94656ba0dd6b73d, 0x214585cbbbbaa4e888⟩,
  ⟨0x42e79d0ed9ea69, 0xc001d713730f6ad7, 0x679b998dcd3b3cb, 0x12956ff984bb30da1c⟩,
  ⟨0x86bc983669905c1, 0x135571d0982e4044f3, 0x17514c9faa05bf4d, 0x3588d6cf3425746b96⟩,
  ⟨0xd1e323fbc56dd1f, 0x3030109c0efdec0062, 0x1602c68e5fc42b4, 0x50dae584a3c1f1339⟩,
  ⟨0xcc6272582d7cc72, 0x258a1d9e638be9c943, 0x1b837831f7b5361, 0x50dae584a3c1f1339⟩,
  ⟨0xa70b91db1df8306, 0x188b8ab58c9f324d3f, 0x14443bb6b2421001, 0x2fa57a4ef80427efb5⟩,
  ⟨0x1c400073b59a8e9, 0x6a43c4610cc1fa931, 0x785ef93eca9273f, 0x1c4c90c35af6d8a0de⟩,
  ⟨0xb0defa2635c7911, 0x21440772ca0c132900, 0x8e7bdf8ea70b21, 0x1acc596a1b6e5210f⟩,
  ⟨0xecac45235d7eacf, 0x239c4f45ac72872415, 0x8e7bdf8ea70b21, 0x1570478815f1db40c⟩,
  ⟨0x4a480538c6185f8, 0x11e1f0bd4a4d6a4187, 0x279a3e5c736e9df, 0x988b18071c21d4b4d⟩,
  ⟨0xd13285dc4187e30, 0x284a39d6846fc3a105, 0x3a2c3faaa4f4b5d, 0xb34248c9d112cafbf⟩,
  ⟨0xa2c58298c5b8a75, 0x1914345fe5d40b99ce, 0x2cb21e841506a102, 0x6e2f0068de8881f9cf⟩,
  ⟨0x10aced72dbdb5ec, 0x41c5f33fdffd27f2b, 0xf37e4de9db1b78f, 0x3c0697a912e06ac633⟩,
  ⟨0x14d828cf92d2367, 0x41c5f33fdffd27f2b, 0xeb27d7306d2dc99, 0x2e60533f431a01387e⟩,
  ⟨0x2838cc0dde1b103, 0x6588c528493b93e57, 0x17c733f221e4efd, 0x3c0642aeed7d77ffe⟩,
  ⟨0x91bfc45568750f, 0x126568363b3233090, 0x6e403baa978af1, 0xdea662802f2cf581⟩,
  ⟨0x20000000000000, 0x6765c793fa10079d, 0x74dc7412a54f5b6b5, 0x179994641b6af2f40211⟩,
  ⟨0x8000000000000, 0x14adf4b7320334b9, 0xc90b445d3a8cc9189, 0x207afc462e220660e16e⟩,
  ⟨0x2000000000000, 0x422ca8b0a00a425, 0x8432db5d224bfed7ad, 0x11161634263540510756f⟩,
  ⟨0x400000000000, 0xd3c21bcecceda1, 0x49fe01f11ab7bfa3661, 0xf4d1d88306432111d2f71⟩,
  ⟨0x100000000000, 0x2a5a058fc295ed, 0xa349e2718596be30fe5, 0x1b038aac5fa305feb1cfd0⟩,
  ⟨0x40000000000, 0x878678326eac9, 0x330716c3a5bf1b6f4f79, 0x6c0e2ab1dbb88a9d7355e3⟩,
  ⟨0x8000000000, 0x1b1ae4d6e2ef5, 0x7b1a2591b53b892c8d5d, 0x1a1161519ab60b8c10479bd⟩,
  ⟨0x2000000000, 0x56bc75e2d631, 0x26782bbd88b89addec2d1, 0x684585466b13cfc14d11b0f⟩,
  ⟨0x800000000, 0x1158e460913d, 0xf6da68b70f5386559ce15, 0x2174707f94514c914638f329⟩,
  ⟨0x100000000, 0x3782dace9d9, 0x3513a56384fa4efac10669, 0xb8259dfef6c0ae13403cb335⟩,
  ⟨0x40000000, 0xb1a2bc2ec5, 0x254a944eebbc6d764e5c5200d, 0x67811497ffc5d16622c7e0a17dc⟩,
  ⟨0x10000000, 0x2386f26fc1, 0x19bccd7401ca71a30cd9a041, 0x392614a1d73b36361a78256fd9⟩,
  ⟨0x2000000, 0x71afd498d, 0x1ed7b636385609b4e8402145, 0x6d9334044fb6bff1f0a471418c⟩,
  ⟨0x800000, 0x16bcc41e9, 0xdd9cce92c63744eeeb40a659, 0x275dc55da806335684d8d152894⟩,
  ⟨0x200000, 0x48c27395, 0x6a7c69878f17f5fd94d433fbd, 0xf21f004fb653f42e43cc6f09518⟩,
  ⟨0x40000, 0xe8d4a51, 0xee027e5128b54848667c803eb1, 0x361dfd8028eb0cfc36f03879eab0c⟩,
  ⟨0x10000, 0x2e90edd, 0x4a60c7795cb8a696a006e8c3975, 0xd877f600a3ac33f0dbc0e3e7e4faf⟩,
  ⟨0x4000, 0x9502f9, 0x1d067a16a170a6e26709bc3df49, 0x43946d5db38f5c26983ebb6fffaff⟩,
  ⟨0x800, 0x1dcd65, 0x222eb1cc2a84b12a7fe82254a546d, 0x7f56e09dae9423412d6fa7b541988f3⟩,
  ⟨0x200, 0x5f5e1, 0x25e5eacb0647a96d5fc34ad31021, 0x70f1f75f646cb4a23a4bc3b0094ae1⟩,
  ⟨0x80, 0x1312d, 0x18fb85f9c75407d9cfe784ea09625, 0x3b901daa46c64e3fc3f8c21a64a38f3⟩,
  ⟨0x10, 0x3d09, 0xe092cdd75105b5e4a463ba3524669, 0x358ae0358ae0358ae0358ae0358ab7eb⟩,
  ⟨0x4, 0xc35, 0x462de0534951c8d7735f2a309b6041, 0xd62b80d62b80d62b80d62b80d62b7e5d⟩,
  ⟨0x1, 0x271, 0x15ee561a06e98ec3540dbd2f308e149, 0x358ae0358ae0358ae0358ae0358ae0338⟩,
  ⟨0x1, 0x3e8, 0x3f8cd0c599d9266a5f3372c003f8cd, 0xf83e0f83e0f83e0f83e0f83e0f83e0c7⟩,
  ⟨0x1, 0x320, 0x147ae147ae147ae147ae147ae147ae1, 0x3ffffffffffffffffffffffffffffff1f⟩,
  ⟨0x1, 0x280, 0x1999999999999999999999999999999, 0x3fffffffffffffffffffffffffffffe7f⟩,
  ⟨0x0, 0x0, 0x0, 0x0⟩,
  ⟨0x0, 0x0, 0x0, 0x0⟩,
  ⟨0x0, 0x0, 0x0, 0x0⟩,
  ⟨0x0, 0x0, 0x0, 0x0⟩,
  ⟨0x0, 0x0, 0x0, 0x0⟩,
  ⟨0x0, 0x0, 0x0, 0x0⟩,
  ⟨0x0, 0x0, 0x0, 0x0⟩,
  ⟨0x0, 0x0, 0x0, 0x0⟩,
  ⟨0x0, 0x0, 0x0, 0x0⟩,
  ⟨0x0, 0x0, 0x0, 0x0⟩,
  ⟨0x0, 0x0, 0x0, 0x0⟩,
  ⟨0x0, 0x0, 0x0, 0x0⟩,
  ⟨0x0, 0x0, 0x0, 0x0⟩,
  ⟨0x0, 0x0, 0x0, 0x0⟩,
  ⟨0x0, 0x0, 0x0, 0x0⟩,
  ⟨0x0, 0x0, 0x0, 0x0⟩,
  ⟨0x0, 0x0, 0x0, 0x0⟩,
  ⟨0x0, 0x0, 0x0, 0x0⟩,
  ⟨0x0, 0x0, 0x0, 0x0⟩,
  ⟨0x0, 0x0, 0x0, 0x0⟩,
  ⟨0x0, 0x0, 0x0, 0x0⟩,
  ⟨0x0, 0x0, 0x0, 0x0⟩,
  ⟨0x0, 0x0, 0x0, 0x0⟩,
  ⟨0x0, 0x0, 0x0, 0x0⟩,
  ⟨0x0, 0x0, 0x0, 0x0⟩,
  ⟨0x0, 0x0, 0x0, 0x0⟩,
  ⟨0x0, 0x0, 0x0, 0x0⟩,
  ⟨0x0, 0x0, 0x0, 0x0⟩,
  ⟨0x0, 0x0, 0x0, 0x0⟩,
  ⟨0x0, 0x0, 0x0, 0x0⟩,
  ⟨0x0, 0x0, 0x0, 0x0⟩,
  ⟨0x0, 0x0, 0x0, 0x0⟩,
  ⟨0x0, 0x0, 0x0, 0x0⟩,
  ⟨0x0, 0x0, 0x0, 0x0⟩,
  ⟨0x0, 0x0, 0x0, 0x0⟩,
  ⟨0x0, 0x0, 0x0, 0x0⟩,
  ⟨0x0, 0x0, 0x0, 0x0⟩,
  ⟨0x0, 0x0, 0x0, 0x0⟩,
  ⟨0x0, 0x0, 0x0, 0x0⟩,
  ⟨0x0, 0x0, 0x0, 0x0⟩,
  ⟨0x0, 0x0, 0x0, 0x0⟩,
  ⟨0x0, 0x0, 0x0, 0x0⟩,
  ⟨0x0, 0x0, 0x0, 0x0⟩,
  ⟨0x0, 0x0, 0x0, 0x0⟩,
  ⟨0x0, 0x0, 0x0, 0x0⟩,
  ⟨0x0, 0x0, 0x0, 0x0⟩,
  ⟨0x0, 0x0, 0x0, 0x0⟩,
  ⟨0x0, 0x0, 0x0, 0x0⟩,
  ⟨0x0, 0x0, 0x0, 0x0⟩,
  ⟨0x0, 0x0, 0x0, 0x0⟩,
  ⟨0x0, 0x0, 0x0, 0x0⟩,
  ⟨0x0, 0x0, 0x0, 0x0⟩,
  ⟨0x0, 0x0, 0x0, 0x0⟩,
  ⟨0x0, 0x0, 0x0, 0x0⟩,
  ⟨0x0, 0x0, 0x0, 0x0⟩,
  ⟨0x0, 0x0, 0x0, 0x0⟩,
  ⟨0xe9d4416571e54d, 0x3955b12248a5abb34, 0xb0c3191a3588233, 0x2b5789761c09c80747⟩,
  ⟨0x3e755b627a47f2d, 0xc4076902a25e9230f, 0xb0c3191a3588233, 0x22ac6df8166e399f6c⟩,
  ⟨0x3e755b627a47f2d, 0x9cd2ba6881e541c0c, 0xec913639617c28b, 0x251fb8e1b875cea66f⟩,
  ⟨0x3229125dfd9edec, 0x64c182266794c6c61, 0xa1cf91d26a8b21d, 0x14506632ed0d6b2b0d⟩,
  ⟨0x3eb356f57d06967, 0xc983044ccf298d8c2, 0x318e1d6e76c245b, 0x9f4399ff0c4a2e943⟩,
  ⟨0x3820ba31f9e46e1, 0x904f7284be2e4b402, 0x258f9783cf4fb55c, 0x6092a8166691ddcc97⟩,
  ⟨0x1aee201091eb4fbc, 0x376464a5aa758bf8f3, 0x963e5e0f3d3ed57, 0x135088047ae9f928eb⟩,
  ⟨0x1c58ec5b17b3f0db, 0x5d4a99c18729376952, 0x1542eee67ac8cb4, 0x45f8be27370782225⟩,
  ⟨0x20aa84e1e8a4ba24, 0x5600e6b465123179d5, 0x1a93aaa0197afe1, 0x45f8be27370782225⟩,
  ⟨0x681668e78917ea8, 0xdb3be3bb7dcdcfd0d, 0xecf8be08087ee0d, 0x1f31edc5859ebd85a1⟩,
  ⟨0xd02cd1cf122fd5, 0x2bd8c7257f8f8ff69, 0x6272fbf8c6c94137, 0x14bc5e3927c231a1b56⟩,
  ⟨0x410e0190b5aef29, 0xaf631c95fe3e3fda4, 0x18009d60d664ac6e, 0x40b5d93f173e6fd29f⟩,
  ⟨0x1c2aa6473d2ed739, 0x3cbfe5ebcdba0b1341, 0xc004eb06b325637, 0x19e256e6094c2cbaa6⟩,
  ⟨0xb24f8f7dcf05b54, 0x26753f1275ae8bcafd, 0x6faf01176263089, 0x18167edfb0abd60175⟩,
  ⟨0x9bc856255425875, 0x1ae119633314c958d2, 0x431b1d37eea19b4, 0xb9425af4299c2722b⟩,
  ⟨0x1438c1f3128b98b7, 0x2ca92c7aae10f2c4fe, 0x53e1e485ea4a021, 0xb9425af4299c2722b⟩,
  ⟨0x68da95ae71c515a, 0x172857be4473585c6b, 0xefa87a72d72af1, 0x34ee0e477ec017f71⟩,
  ⟨0x346d4ad738e28ad, 0x943564c1b61568b5e, 0xa8838e3bffd510b, 0x1dc61987344b5b5b4d⟩,
  ⟨0x10e8f387cdc4eca4, 0x263e33922869c202fd, 0x2ceeb6d954b5c1, 0x659e2093a177f1d7⟩,
  ⟨0x206a7158d0e42b4, 0x754bf032b93fa0bed, 0xd0894138cfd1cfd, 0x2f296b17a2839bd646⟩,
  ⟨0x28850daf051d361, 0x754bf032b93fa0bed, 0xd0894138cfd1cfd, 0x25babc12e869497838⟩,
  ⟨0xcd9142d1f4b1ef1, 0x1dc0fc744db877e18a, 0x17bff336d8ff06, 0x370033cfb447d8eb⟩,
  ⟨0x1035f123a03e8517, 0x3c10f96f5112775d77, 0xbdff99b6c7f83, 0x2c002972f69fe0bc⟩,
  ⟨0x3cf246a781603d6, 0xb4a979b60917862cf, 0x3b5fe0091e7d8f, 0xb000a5cbda7f82f0⟩,
  ⟨0x15460e7f289b46b6, 0x3272e5ffb0245ddf1f, 0x111790aa294bfbd, 0x28884fafe747e4823⟩,
  ⟨0xca2dfd488f194c, 0x2ff200df45ab12f71, 0x6ebb92fbe05f149, 0x1a4267f3dc59549ffa⟩,
  ⟨0xfcb97c9ab2df9f, 0x2ff200df45ab12f71, 0x6ebb92fbe05f149, 0x1501ecc316addd4cc8⟩,
  ⟨0x10ce48872cecf66b, 0x28cf63d38393a5ecd9, 0x28884a3e17dfde1f, 0x626d1ea97fb2634a52⟩,
  ⟨0xb5e647a73d4d82c, 0x2c2bdba0cee2aa9cf9, 0x4b22140e75030251, 0x123eae42f33c8252ed6⟩,
  ⟨0x74a446952c41cee, 0x16a8dce5534f5968f9, 0x6ebb92fbe05f149, 0x1582febb7b93513400⟩,
  ⟨0x5a6f8ebc8722b85, 0xe0e109a55146c20f9, 0x6ebb92fbe05f149, 0x11359895fc75da9000⟩,
  ⟨0xf8ec699e963ab49, 0x3de5d0c7e80110e557, 0x513010fd64f171, 0x14303317626f8f936⟩,
  ⟨0x3cf65a23affae76, 0xc208f847d2b9e626d, 0x1872522254f6cdf9, 0x4dcf69e0c7a19a3366⟩,
  ⟨0x9867e15937f3427, 0x18411f08fa573cc4da, 0x775ea0660bbcce9, 0x12ff346f05e1d27eef⟩,
  ⟨0xea581f01d9c1d7, 0x1dd5e1be8df6b17e1, 0x354c1e7fb34fe6d, 0x6c918fc172bfe5c14⟩,
  ⟨0xfd0f50608eb8f4, 0x338c981871b6ac3e5, 0x451d1385bc3b761, 0xe1424ae78fb682405⟩,
  ⟨0x58e245cd4761e92, 0xe7c1a0d1b17be13e9, 0xf6e19f204aff485, 0x283b84a5ca2bcf77d6⟩,
  ⟨0x116fcc9b7626afc2, 0x245f2654a9ff904bcf, 0x38c71b362ff6355, 0x766f23a73d01423fd⟩,
  ⟨0x67651c0ee18f1af, 0x159141dfc25f6803d5, 0x38c71b362ff6355, 0xbd7e9f71fb3536cc8⟩,
  ⟨0x2474e67b333b95f, 0x6156b14eaea449aa8, 0x39627561125be2, 0x993749424cadaf11⟩,
  ⟨0x280b0dd14461541, 0x55881e4f0f8c1d494, 0x592041bb090ee55e, 0xbe5f3a88accb8ea997⟩,
  ⟨0x33ff0bfd3711d8a, 0xb1b38ebb994a781cd, 0x943839191ed4cbb, 0x1fa8d63bce316722d3⟩,
  ⟨0x8b1aeb891440b4a, 0x17c52836d8db9d8fbb, 0x943839191ed4cbb, 0x1953de963e8dec1bdc⟩,
  ⟨0xb2704d335e9aed5, 0x1864a45d0189569495, 0xbb8d9ac3692f046, 0x19a39ca952e4c89e49⟩,
  ⟨0x2a54bfe8d501b59, 0x94244d379abf5045a, 0xff9b6168adfba04, 0x37e85bbc629f8bbebf⟩,
  ⟨0x2a54bfe8d501b59, 0x768370f948990d048, 0x13f8239c2d97a885, 0x37e85bbc629f8bbebf⟩,
  ⟨0x1d977180b049c282, 0x42470f3898f9bce257, 0x1af2258222f9a729, 0x3c5a165f55587c3bb7⟩,
  ⟨0xe031a5c8d5ab4ff, 0x3236b6487ee8e7c1d6, 0x644f31e5651621, 0x16777bf30ef71466b⟩,
  ⟨0x1a44e6a21b68423, 0x4b4f704c5d3e64e61, 0x1f58bf97af96ea5, 0x59ddefcc3bdc519ac⟩,
  ⟨0xbdd7d13a8a8771, 0x1b3679d1c592f904b, 0x3c2792b49516809, 0x89f6e646d387bd7c2⟩,
  ⟨0x41fbcd142031367, 0xf2221da98bc6964fd, 0x7210da607a2c34a, 0x1a29362b8d8a443b37⟩,
  ⟨0x1338a91aae93249e, 0x386d79e0bf03170531, 0x39086d303d161a5, 0xa76e277d2374e7e16⟩,
  ⟨0x27b46e74fa6cf05, 0x5d3f99a2f42586b8a, 0x7abad9be1b80c9a, 0x1203c8228ccd70c667⟩,
  ⟨0x27b46e74fa6cf05, 0x95328f6b203c0ac10, 0x42c7ac79929541f, 0xfaefde4e04c809b63⟩,
  ⟨0x851b21aa3042bed, 0x190226db9250414773, 0x1823bfd45399bd8b, 0x4891285fac31038e30⟩,
  ⟨0x10d7b9d42b650969, 0x28814d6985d9f54d8d, 0x7e906dcd84ac8cf, 0x1306009b3d8d1a82b2⟩,
  ⟨0xac16cf6c87c990, 0x2962c65a93cbb6e47, 0x26c0146b3ee30b7, 0x951b001b10b14882c⟩,
  ⟨0x3431dc9fb97ecab, 0xa0ab933d078cbdb37, 0xc355aa4a6b5f6b8, 0x2594b86998a673fe95⟩,
  ⟨0x1f92463fba5b13bd, 0x4dbf9d38da89a36b71, 0x30d56a929ad7dae, 0x78424e1eb547d9951⟩,
  ⟨0x3b23a6755483820, 0xe905425b816c6a67b, 0x7a158a6e831ba33, 0x1e109387ad51f66544⟩,
  ⟨0x49ec9012a9a4628, 0xe905425b816c6a67b, 0x3ef1e3f92e98213, 0xc66991b2a95bfcbd4⟩,
  ⟨0xd2cb041e81e0e63, 0x2139011ee235d74708, 0x766350072dd36b1, 0x12a8acf92a1f10a08d⟩,
  ⟨0x807f6f1515f3d1e, 0x1033aae0b2807dd74f, 0x9a7b0b04efb9c1d, 0x137a5856a753ec38f7⟩,
  ⟨0x99106e6ac4cfe4, 0x1ee0ffdc1c5203733, 0x1116973335960957, 0x37285b8e012856493d⟩,
  ⟨0x26441b9ab133f9, 0x62cfff8d276cd7d7, 0x56c958f87c290274, 0xe01abe33fb042cbb83⟩,
  ⟨0xbf548a057603dd, 0x18b3ffe349db35f5c, 0x151945cfb44570b9, 0x2b95f2d8a1b5dfd937⟩,
  ⟨0x9800dd32f34d27b, 0x1f669e7be0b881c68d, 0x5167c516bb3db37, 0x10d114575ed67830be⟩,
  ⟨0x9800dd32f34d27b, 0x191ee52fe6fa016ba4, 0x3fc17f0fad39d66, 0xa895b0b6517f7d5d5⟩,
  ⟨0x3829ba0cc779a9b9, 0x76ce57ba8af7119e9f, 0x11783db524dc0d47, 0x24f47c388dbb2745d8⟩,
  ⟨0xf0403b56396079, 0x32d27a05a4f0b1ed6, 0x2d14fa9ddd7c31e7, 0x9895ac52be632dc5a1⟩,
  ⟨0x4b14128af1ee25d, 0xcb49e81693c2c7b58, 0x9a0ce3fa07aa3a6, 0x1a11eafcdad85ffc5b⟩,
  ⟨0x972154ceeccfc75, 0x1475ed3443a6aef9af, 0x4dffa1b60cc898e, 0xa8f4d9726035affad⟩,
  ⟨0x162a8e1a5832dfe0, 0x4cd3156a6ef2602577, 0x44efa75cb8fee467, 0xeeebe4b8380d02d689⟩,
  ⟨0x3c54fe41ae6a19b, 0xa747dd52b12d3e6a6, 0x7faa0944672fcbf, 0x161f87dc6bf52ebf9b⟩,
  ⟨0x1a37dca8d2b6c786, 0x3a27d22ba0bb6863ef, 0x10d542c0ae316c9, 0x2556867d9c6def831⟩,
  ⟨0x1d1fc6403afcb59, 0x675cabf537fe46032, 0x1b8543c195fd34a, 0x61abc3fbd5b89b0ab⟩,
  ⟨0x4e163e1253f7922, 0xddb492554c1cef0e7, 0x7f0cb5e46cf26eb, 0x168b89b199ea1a61a6⟩,
  ⟨0x492091addc78086, 0xa6195ba05e4e3f701, 0x30f677d218fadc9, 0x6f366d69db9d5f3cc⟩,
  ⟨0x249048d6ee3c043, 0x84e11619e50b65f34, 0x6ae870d3490498f, 0x1848636741588fde99⟩,
  ⟨0x362652d604ee296, 0x9d6eb1c05a88a3271, 0xfa612a7d8045361, 0x2d7f1359b4017816b8⟩,
  ⟨0x1b13296b027714b, 0x3ef913e68a9d0e0fa, 0x29a8fa85a445fa63, 0x60e580910501a97ee7⟩,
  ⟨0x149ec631f282be, 0x4cbc8170b725b1e7, 0x84cbf650ce030fb, 0x1ee310f063e03ba402⟩,
  ⟨0x338cef7cde46db, 0x997902e16e4b63ce, 0x3f7fa74960e7252, 0xbd0b37729dcd40161⟩,
  ⟨0x117c514e3f2c002, 0x29a544c2f58488e99, 0x13c1dfdf7aacdddf, 0x2f0e5d9bfdd4350623⟩,
  ⟨0x6b71839d115af7b, 0x1997009e13d4050ecf, 0x3fbab859736cf76, 0xf2daf6d5672e2d46b⟩,
  ⟨0x5ecb78b721bc25, 0x120fd640743138679, 0xa53f846b12ac2cc, 0x1f7c5c3eb428d92f4f⟩,
  ⟨0x588c79c0fb71d8b, 0xd7f5602b44600181a, 0x1271bdf46d2c910a, 0x2cfbb241686ed94769⟩,
  ⟨0x9393141a14a770f, 0x23fdcfac1708920b49, 0x938defa36964885, 0x23fc8e9ab9f2476c54⟩,
  ⟨0x2923b55a1745, 0x806d586f510c62, 0x170e42036324c0ef, 0x47f95d6c201c375ed9⟩,
  ⟨0x5c3ed1130d3e497, 0xe65f9da72679cf60f, 0xb870c6fd6e554d5, 0x1cc9f1ff8311f5ba96⟩,
  ⟨0x39af4ba553df796, 0xe67fb8fd424e12797, 0xb7c9a5ecb056c5, 0x2de62c75ad88cb8ab⟩,
  ⟨0x762dabef834f36e, 0x179c70522f9de41507, 0x6d80263593da0eb, 0x15e098b85cb9ef56fa⟩,
  ⟨0x8ad85b9ef75283, 0x16312e175832a31a4, 0x86b4ce547cf3485, 0x1587d3ffff5924ca91⟩,
  ⟨0x78b079e122facd, 0xf6ea258b7a32941f, 0x1c4d8d6588ea6f5, 0x39e773abf18439e52⟩,
  ⟨0xf53f9c8deb5b5c, 0x322cb48caef27f31d, 0x4a497ac0250b909, 0xf32ba385f5ab0d6a7⟩,
  ⟨0x6147716d731c213, 0xfebef513fcdf09c42, 0xaf65ea9fcfd51f3, 0x1cb51359b4acb94567⟩,
  ⟨0x6147716d731c213, 0xcbcbf74330b26e368, 0xc2ed88ec67035eb, 0x1985e37ca7e9ef8c8d⟩,
  ⟨0x307465adf928827, 0xa26af198dc60417bc, 0x3d07ceaf5870867, 0xcc9240874dec8a925⟩,
  ⟨0x1857c6bc74d3ba11, 0x4146e45863d758bca0, 0x39e2f46f009e857, 0x9b39f0a2f46df9d6f⟩,
  ⟨0x147ab6687ded69a6, 0x2beeecdb956e9ffbdf, 0x39e2f46f009e857, 0x7c2e5a1bf6be6178c⟩,
  ⟨0x300fca65ee2e425, 0xa4f7843ac98d2e48c, 0x244fd9be4e23751, 0x7ca3110bd652e03af⟩,
  ⟨0x2effc29e802b35, 0x810e3d630a542cf9, 0xcfff1e30aec9972, 0x23b2446b70f1ada37d⟩,
  ⟨0x2effc29e802b35, 0x673e97826ea9bd94, 0x10576e3d1ce7d569, 0x23e5e3b73229028247⟩,
  ⟨0x24b8d733d8d3616, 0x8111da528fba92187, 0x5f7a98ca026ca39, 0x14f96433677dad77f5⟩,
  ⟨0x5da45965d03e8b8, 0x1074df53526121b7e9, 0x5f7a98ca026ca39, 0x10c7835c52caf12cc4⟩,
  ⟨0x11ac34b95a2e9ba9, 0x27c1019bf93dc3b078, 0xa5b5dbd65e9b8c3, 0x174c2248a6dca1f88f⟩,
  ⟨0x24b633a44b103b5b, 0x84215c08d8e0055d7f, 0x1acbc8fdaf1d1d4, 0x607143f98ab3a0b71⟩,
  ⟨0x11deea51ebefc2ca, 0x337493644f7af9e3d3, 0x217ebb3d1ae4649, 0x607143f98ab3a0b71⟩,
  ⟨0x114f23f83cb0fa89, 0x27dee226d521ea7fbe, 0xde35f3daa8c2cfb, 0x1ffd99929be76956c1⟩,
  ⟨0x60658279c65c01, 0x16345368f0cbe5a47, 0x76c3b4b0008ede0, 0x1b5b52ad37c3c9951f⟩,
  ⟨0xdbe32c8339c584a, 0x288515b032f34ac79d, 0xb82be72f9d3c0d1, 0x21f0342eb55b8a2e5e⟩,
  ⟨0x6c8bb31e393f948, 0x100079583a805c796b, 0x930ebeb89d0f67b, 0x15ade602b922130745⟩,
  ⟨0x387731200e47cec, 0xd51959dedb0f6fa39, 0xb601ed2d57fee1, 0x2aee3ba4ccf657f32⟩,
  ⟨0x51f51c3ae759b08, 0xf7718995e56e1c661, 0x5d553b0dbcd99e9, 0x119c9b94cefccc9289⟩,
  ⟨0x66726349a1301ca, 0xf7718995e56e1c661, 0xb601ed2d57fee1, 0x1b79bfc5a1e557020⟩,
  ⟨0xce4ea0b1991a1f4, 0x31d481c4cf41503363, 0x488f952c24de047, 0x1186a094fdae7b8021⟩,
  ⟨0xb952b3b1da82a2a, 0x23cf3480d11c2099af, 0x488f952c24de047, 0xe054d43fe252f99b4⟩,
  ⟨0xedc8843136fd5a3, 0x24c1c3d383e0593366, 0x3e82b2d5c0ac5e0, 0x9a9b89e3a5a3299b5⟩,
  ⟨0x5dd781322d65098f, 0x1735be38df1d45e68d8, 0x4b8fd327696bc6c8, 0x12b050e2acd2255a5d1⟩,
  ⟨0xd65781210ebcb6f, 0x2a691cebbffe1c72e4, 0x30d61bb6fe86a97, 0x9a9b89e3a5a3299b5⟩,
  ⟨0xcee1bec4944390e, 0x20bf644d85a3e9d92f, 0x775c25c7a79261, 0x12e4c6f13f42ce921⟩,
  ⟨0xd65781210ebcb6f, 0x1b248d63ae13456840, 0x3ee9133bdcc69d5, 0x7f76fc7ff78fe4331⟩,
  ⟨0x4883ae04e9edf0f, 0xeb13e7a3559c39783, 0x1120d0b6f3c76386, 0x3786bbdd25bec3bf5f⟩,
  ⟨0x70c5f03079b54c4, 0x12478a94fcc0933bf3, 0x890685b79e3b1c3, 0x1635e4bedbe5e7e626⟩,
  ⟨0x33a1808d2af4a2c4, 0x6b1f1d906c5832d48b, 0x890685b79e3b1c3, 0x11c4b6ff16518651b8⟩,
  ⟨0x22bfbe3e86cbb77, 0x735a6b737039eb5ef, 0x35adf53ceb922222, 0xb231f98cc59e4c1b6b⟩,
  ⟨0x1500bfef2ea667a, 0x37c6faf7189b9cd4f, 0xdbefe4f58254fd, 0x24815afedac5ec43d⟩,
  ⟨0xadbeb738a1fa953, 0x1712157d7cd8624630, 0xdc9e249aa0828e7, 0x1d4b6c000b975a9895⟩,
  ⟨0x51036df0112c4b7, 0x113633171420835adf, 0xdc9e249aa0828e7, 0x2edf133345bef75a88⟩,
  ⟨0x1722a7805b207e87, 0x3eea392379c8c30527, 0x22e6adaaa3d590c, 0x5ee9338d6b94a6655⟩,
  ⟨0x20f3885859348f3d, 0x47afd94f666edb0e1e, 0x2ba059154ccaf4f, 0x5ee9338d6b94a6655⟩,
  ⟨0x3775857c1e6f105, 0xc10bab3cfbf20e71e, 0x88cba1734f32ec8, 0x1dc2aa3d42c4ba0ce3⟩,
  ⟨0x16b3fb0bf90a1a47, 0x3f389497b7fb02d017, 0xaafe89d022ffa7a, 0x1dc2aa3d42c4ba0ce3⟩,
  ⟨0x10ae4b5126655668, 0x25292a77a7a7d77985, 0x201e53e4636ebf5, 0x478d533c5f9ec200d⟩,
  ⟨0x86b09d471c86a0c, 0x1e016ef19e17f7463d, 0x201e53e4636ebf5, 0x727bb86098fe03348⟩,
  ⟨0x71522cce30bc2647, 0x14323402273cd4fa70e, 0x41ca7b362a90678, 0xbb9ac352744b19d79⟩,
  ⟨0x736080a7e210a983, 0x1073344fd9f8c86c4a2, 0x523d1a03b534816, 0xbb9ac352744b19d79⟩,
  ⟨0x7930479ae9c55eb, 0x1ba5525a8173ff6b22, 0x2a343cb72d9ef26, 0x9a0af3d0dcf638561⟩,
  ⟨0x5c3f5156d719e52, 0x10d5bd48d5aad5147b, 0x7fab443e9972d299, 0x174c9e573a2a241b8d9⟩,
  ⟨0x9acd2b1e6af3949, 0x1699c885758d9653c3, 0x4bd1203aaecd284, 0xb11b20c35c813d533⟩,
  ⟨0x56e0b9968b536f5, 0x144b5da068cc7c3a73, 0x10c86db76712750f, 0x3eba1f593d29201f4c⟩,
  ⟨0x1a68c99e481dda81, 0x4ef708580647233042, 0x1f92bacb3cb40c, 0x5e67b19a27224997⟩,
  ⟨0x860d0072cf2fb248, 0x140a76564ed194a7db3, 0x7e4aeb2cf2d03, 0x12e189eba16d41eb⟩,
  ⟨0x56fd074065a818a5, 0x14ced323e1606b55673, 0x7e4aeb2cf2d03, 0x1e35a97902486978⟩,
  ⟨0x156a677a1736e249, 0x4192095af3ba82530f, 0x2777697e0be10f, 0x78d6a5e40921a5e0⟩,
  ⟨0x56477b8e550b0d6, 0xd3560002b2720cb63, 0x570cd09dcb4672ab, 0xd5395a9a4296934db0⟩,
  ⟨0x891ed4897144609, 0x21963bc3d023ec3a9b, 0x4e93e05a635740e, 0x133f443cdc7896f2f1⟩,
  ⟨0x30ea722e1fcc601, 0x995d70ef3f6404d41, 0x12646953e37f2e25, 0x39aa3697a0ddae8064⟩,
  ⟨0x119d9fea851b5a1d, 0x2c2f2b0387ae75cd7d, 0x12646953e37f2e25, 0x2e21c5461a4af20050⟩,
  ⟨0x590c9b584f858b9b, 0xb2af4650b1565368c7, 0x31b25a5798f502, 0x63b873b6ec18d6f7⟩,
  ⟨0x135fe9d63cde2669, 0x3e33f62b122f6bc759, 0x7c3de1dafe6485, 0x18ee1cedbb0635bdc⟩,
  ⟨0x3443157877cc2ea, 0x863b2eec872133909, 0x26d356946f7f699, 0x63b873b6ec18d6f70⟩,
  ⟨0x8f5981855f17c6d, 0x1268bdad99515cb468, 0x658e5ec19cca92, 0xd0abe804369b212b⟩,
  ⟨0xb591381f408a77f, 0x254eaf4ccec37ce31d, 0x32c72f60ce6549, 0xa6efecd02baf4dbc⟩,
  ⟨0x5932629499d211b, 0xea97fbfff6febd55a, 0x348850b16d28dc4, 0x8a29fb9a00f548625⟩,
  ⟨0xf40f2a06fc1736b, 0x201838ecd25c010eb5, 0x9adcc7726245250, 0x145d6c533935aaca6d⟩,
  ⟨0x9ae8da6a44ae5de1, 0x2098047a07a99b4bd31, 0x135b98ee4c48a4a, 0x412af43d83deef549⟩,
  ⟨0x1c2723b6380e2ba9, 0x4bd23169412740a8fb, 0x3064fe53beb59b9, 0x8255e87b07bddea92⟩,
  ⟨0x3b9529c732010a, 0x805fba68f5b0aec5, 0xf1f8f7a2b98c09d, 0x20957a1ec1ef77aa48⟩,
  ⟨0x1dca94e3990085, 0x66b2fb872af3bf04, 0x12e000b37d98b0a3, 0x4111477ea2143264cf⟩,
  ⟨0x9d84562db63da23, 0x1b26782621b38b725e, 0x4a1a83d34b36bc5, 0xcc5d61c0283de3b27⟩,
  ⟨0x131b95dd44cab1ad, 0x2a281d181efc3986f0, 0x141ec2b275784bf8, 0x2c63ebee19c109605b⟩,
  ⟨0x1e25f48e5a2e817b, 0x6a6c84513ec2cea8da, 0x283d8564eaf097f, 0x8e0c8c93859ceacdf⟩,
  ⟨0x1d8b2216c7073376, 0x536e64c3fd6869a8ab, 0xc9339af896b2f7b, 0x23832324e1673ab37c⟩,
  ⟨0x57dda65a13d09a0, 0xc681e7a3a99f441b3, 0xa60e253af52c53b, 0x17727653034833a882⟩,
  ⟨0x36ea87f84c62604, 0xc681e7a3a99f441b3, 0xbc058ed17a207a3, 0x2a7a631c1cb11ac17e⟩,
  ⟨0x44a529f65f7af85, 0xc681e7a3a99f441b3, 0xa0904ad553ef4a1, 0x1d050fe5991ce6e6ea⟩,
  ⟨0x724f8bb501d8dc3, 0x108733ae17a8efe1ad, 0x4b2eb0d7dc450, 0xadedea36d0161c5⟩,
  ⟨0x726bbd3752cb761, 0x1a78720287e94d708b, 0x2efd2e86e9ab2, 0xadedea36d0161c5⟩,
  ⟨0x392a1f5007ab504, 0xa94676e15adeb7fdd, 0xabf3d6e4684a1c9, 0x1fd2f40787e3c54321⟩,
  ⟨0x4774a7240996245, 0xa94676e15adeb7fdd, 0x81143f686289a06, 0x131c852a5fb443b5c9⟩,
  ⟨0x37543b7ec28aa1, 0xd1b713eb0fd483fa, 0xa313f11e71405d8, 0x26a1e5deb4f071ad8f⟩,
  ⟨0x2c3a3fff8878c17, 0x861c06fad098d8c4b, 0xf8132d659609365, 0x2f03a64e61f9ff39da⟩,
  ⟨0x67d5a4a4da4287d, 0xfbe200c26b775994f, 0xd77f6b3f5d6b79, 0x20ac1a666b74afe8e⟩,
  ⟨0x1b2725e05abd125, 0x6963751876d772acf, 0x1f7fa7cc0d4f8d6, 0x7a416d6e9b7efb515⟩,
  ⟨0x1ba0f4782e5a7eb3, 0x55c9c7f4ce31664374, 0x253350c9375a333, 0x73823d4c266f2b0f9⟩,
  ⟨0x9ad7b5e665517d4, 0x180a2303ff633cbb2d, 0xa62f4ad3a7b2b9, 0x19ccec503682f583d⟩,
  ⟨0x10b32f69a3c5d2ce, 0x425f7e7cd36275eda1, 0x188c711369e7c57, 0x61912d19c33fed26d⟩,
  ⟨0x56da2f60653dda, 0x11426dc251219f113, 0x802bd85717dab8d, 0x1978722295e2153ac7⟩,
  ⟨0x85997b4d1e2e967, 0x153d47322f29bf5648, 0xc19d2d40255d0ca, 0x1ec7c3ef21ac851059⟩,
  ⟨0x85997b4d1e2e967, 0x10fdd28e8c2165dea0, 0x134d13636bdcb9b0, 0x2746ad3667bd37ffa9⟩,
  ⟨0x11cb06f897023c5, 0x39ee8f6a1f71afe01, 0xc102c1e2369f40e, 0x2746ad3667bd37ffa9⟩,
  ⟨0x4af13aed702b2ab, 0xc333a32d71b2b9723, 0x87dc8ded5d76528, 0x161e0abdfd7516cd65⟩,
  ⟨0xb0d6a55f7643e89, 0x1707ce9aaa8f308dbf, 0xa9d3b168b4d3e72, 0x161e0abdfd7516cd65⟩,
  ⟨0x82e03f09e856ee1, 0x1b457661543afcc38e, 0x21b793b5ba6e2341, 0x7069bd6f4d7da583ad⟩,
  ⟨0x9f9a3eff610b0aa, 0x1a9b1598ee843f78dd, 0xaf927e336691867, 0x1d4498ba855f34a3a1⟩,
  ⟨0x1eec6fc3228a79bb, 0x41fbcff04eb95c777c, 0x2fe2af59db06009, 0x662d25f38d86ec2e1⟩,
  ⟨0x13b38b38a94c9816, 0x4342c6d026e4a5d1a9, 0x16b1b62e46fcf81f, 0x4d7a7dcee83ef0a311⟩,
  ⟨0xab90a57d03b77fb, 0x1d494e431bde377df4, 0x66bf848f92b560a, 0x118a0a8f8851d8b0e5⟩,
  ⟨0xab90a57d03b77fb, 0x176dd835afe4f93190, 0x2aa712f4f586f8f, 0x5d31e74b05f5c181d⟩,
  ⟨0x111762a8c8759506, 0x3bc02c0dd9404248d7, 0x2570bbcb7c898d5, 0x82e3d83f36702b1fb⟩,
  ⟨0xc3470f1e708002, 0x22225646dc4706c31, 0xbb33aaf96eafc29, 0x20b8f60fcd9c0ac7ec⟩,
  ⟨0x72f59b240ba5e18, 0x10136392ebeb081aa3, 0x547280c74a11e13, 0xbcf18ca1062274241⟩,
  ⟨0x47d980f68747acf, 0x10136392ebeb081aa3, 0x7f8e9af4ce7015c, 0x1c8a30350e2a1079fd⟩,
  ⟨0x27f5da3953aba78, 0x72712d15380699683, 0x9f7241b2020c1b3, 0x1c8a30350e2a1079fd⟩,
  ⟨0x9fd768e54eae9e, 0x16e36f6aa4ce1eae7, 0x3c71027edadd60fd, 0x8a7a673587c342814b⟩,
  ⟨0x18f9a863d44b48b, 0x5b8dbdaa93387ab9c, 0xe40786f7b6b2826, 0x343e7d29f2d8299555⟩,
  ⟨0x906baf1b54b41f0, 0x1a78809fd721ea97f9, 0x138b65282f3bb39, 0x39511353253cbe989⟩,
  ⟨0x241aebc6d52d07c, 0x54b4cecc4a0621e65, 0x1a6ab43c66abfc79, 0x3df9f927b2f2a2b7b1⟩,
  ⟨0x2d21a6b88a7849b, 0xa9699d98940c43cca, 0xbcc4ce86f023bef, 0x2c497a6630ee86748f⟩,
  ⟨0x938dcc4f10d6c6, 0x1bb1af84c4442f247, 0xbcc4ce86f023bef, 0x236dfb84f3f2052a0c⟩,
  ⟨0x49c6e627886b63, 0xb13dfceb4e812db6, 0x1e373184785aa24d, 0x4897120234284d465f⟩,
  ⟨0x463acd9a30d387c, 0x10df3cc2c412f9dcb1, 0x756773480705809, 0x1c34899e2db1ea4bb2⟩,
  ⟨0x57c98100bd0869b, 0x10df3cc2c412f9dcb1, 0x524a0c7aee9bbcb, 0xfd0bc30a2ed244aae⟩,
  ⟨0x5509c6bdd5d2133, 0xd1330615c66727626, 0x49fa98cba6f75346, 0xb5fe24c0ec746ce411⟩,
  ⟨0x2b60cd93d32a04a, 0xaabda04b6f31fe21f, 0x1270e78f9b39c521, 0x4895f4fcbe5a340ad3⟩,
  ⟨0xf23c66d7e0f685, 0x2fac5a90be87e086f, 0x5d4e3b8411d9a34, 0x125cee6061fdc1bbcf⟩,
  ⟨0x2677554e8285d12, 0x60e67675053252c4f, 0x74a1ca6516500c1, 0x125cee6061fdc1bbcf⟩,
  ⟨0x7da1ba7bef92340, 0xfd2f01d97a6b4bc5b, 0x1d776537a943a93, 0x3b6214ef7006a63bd⟩,
  ⟨0xfb4374f7df2468, 0x32a3005eb215758df, 0x24b0b06c814d203f, 0x764e4b1d6fa8e0d64c⟩,
  ⟨0x13a145235d6ed82, 0x32a3005eb215758df, 0x23f43dd4c765c4f1, 0x5cbeec13ff73190fb7⟩,
  ⟨0x31132cd869951c5, 0x654600bd642aeb1be, 0x10718583a0663996, 0x21eefb3547d97f7a37⟩,
  ⟨0x8b62d9531ff890d, 0x1cc3b164ebc3d641de, 0x566455dfa800127, 0x11d409e8089b069bd5⟩,
  ⟨0x11a38faff79f6cc1, 0x2e97bb4cf45edcddb3, 0x1df28a12f601e9a, 0x4f1af43d602a5e9ed⟩,
  ⟨0x58b40bde8e780d3, 0xbb72259695570112f, 0x4ade592f6704c81, 0x9e35e87ac054bd3da⟩,
  ⟨0xaa7d3e65893677d, 0x240704765337b005ec, 0x10fcdff5f4d2c96, 0x396fea5ebbee3e213⟩,
  ⟨0xaa7d3e65893677d, 0x1cd269f84292f337f0, 0x6a7ab72636a2b7a, 0x120033a20d085d7e0b⟩,
  ⟨0x3a9ff16936f28e0, 0x7edb9a94b391b6391, 0x10a32c9df8896cb1, 0x240067441a10bafc16⟩,
  ⟨0x24a3f6e1c25798c, 0x7edb9a94b391b6391, 0x1202ec466fd31c05, 0x3e5c149f56d6a20247⟩,
  ⟨0x2dccf49a32ed7ef, 0x7edb9a94b391b6391, 0x10ddcc8f61c05f3f, 0x2eb75fd55a94dd0d32⟩,
  ⟨0x2395f41d6b94e0a, 0x4eda16c75490516fb, 0x7a3eeaaabbe4d8d, 0x10ee025fcd095e4953⟩,
  ⟨0x1bf61a03174e6923, 0x6321cb2a36fcb84f21, 0x71ece8927028af0, 0x193e71129e87763bc5⟩,
  ⟨0x49f18b9acbb08883, 0xd1b91b1f13a20fe89f, 0x1c7b3a249c0a2bc, 0x50c7d03b94e4ad8c1⟩,
  ⟨0x281f368f5264748f, 0x5b097646a8a867db70, 0x239a08adc30cb6b, 0x50c7d03b94e4ad8c1⟩,
  ⟨0x16641f0447d4404, 0x5149f6ad989522b87, 0xb2022b64cf3f917, 0x2863e81dca7256c608⟩,
  ⟨0x1bfd26c559c9505, 0x5149f6ad989522b87, 0xa13714219960614, 0x1d438d3e1f6f7a844f⟩,
  ⟨0x444aebcdc02168a, 0x9eacefb811dc0a3af, 0x10dcfc4f7bfd9e23, 0x272e5c39a08d3b27fe⟩,
  ⟨0x17bf2899647e53c2, 0x5847876ec23836f3ab, 0x1a5ca62670fcf2d7, 0x620063554e920e3b0e⟩,
  ⟨0xcfae5e3a27b4c9, 0x269a6939ab4f4b897, 0x3d15d0198b8909d, 0xb5ab62653ff268eca⟩,
  ⟨0x1901a0711cbebbe, 0x3b7eec6a0d2cdbe83, 0xa0282687d64c1c1, 0x17d0caad3c9568d03f⟩,
  ⟨0x37ab0de8a78a3c7, 0xd3ea63f1f74f7ab69, 0xd7d334707dd6588, 0x3359842119fd9f5f01⟩,
  ⟨0x710c5c9dd7291f3, 0x15847490dfe5ff552f, 0x343e8c4f9760efd, 0x9f1afdabe07e00346⟩,
  ⟨0x1e66e8271fe417b, 0x4a11b7c0d8c0c872a, 0x91cfd2da8a64636, 0x1633ed7382d5c64a21⟩,
  ⟨0x239ab597da8110f6, 0x8aca4829df752a9da1, 0x3e47a91bbbdeab3, 0xf2c6643ba51e2628b⟩,
  ⟨0x1f951f6e06227d8, 0x627d759327977b059, 0x116a3947ca13c59, 0x364ef911aa21ac5ba⟩,
  ⟨0x40c9e86cd34781d, 0xa1a2878b846a50b66, 0x194f81234b9c64f, 0x3f2511f85cd2d5b0d⟩,
  ⟨0x1521c70465c7441, 0x545a1a8870159f4a1, 0x5b7dfcefc0d59c6, 0x16d35187f5264ad845⟩,
  ⟨0x9ae351fcf22b689, 0x1ee9c5346e8846f820, 0xc4e9bb9bd51c51, 0x274cfa494a0b7c967⟩,
  ⟨0x1720908fe2c30c42, 0x3b151f44ca3cb43efd, 0x2ff3c94a8a882df, 0x7a80a6d3c15494411⟩,
  ⟨0x44885d9a45c81a1, 0x8c10215439d39f15f, 0xefc2ee74b4a8e5b, 0x1ea029b4f055251044⟩,
  ⟨0x13006115a3e06ecd, 0x3e22722c186ab35cfd, 0x51580db87b0652e, 0x109fe5684f7a0aa649⟩,
  ⟨0xa974c529394584b1, 0x1bb4b90e218b0a2bd63, 0x1a0613544aed803c, 0x4413e8873ece636f23⟩,
  ⟨0xa2f34054268a24a2, 0x155054566a0ca6e4e15, 0x208798295da8e04b, 0x4413e8873ece636f23⟩,
  ⟨0xcb06d4828c3b142, 0x2a7d3de430dbe768eb, 0x3ba028f2f2fa079, 0xc7a77f05397ff71e9⟩,
  ⟨0x8f66ab8f99410c9, 0x180237f64a9cb99268, 0x26ae884bc968465, 0x679e9f2c0f0d10d4f⟩,
  ⟨0x1c73501a476a74f3, 0x3cf843d2171b153f6e, 0xf6f1c4f82007cac, 0x21134c4a258777d83d⟩,
  ⟨0xf2d81a17b486070, 0x340abb33e9276ab123, 0x3dbc713e0801f2b, 0xd3aeb50dbcfc989b2⟩,
  ⟨0x3cb60685ed2181c, 0xa688bd72ea17bbd07, 0x134ae36362809bd7, 0x34ebad436f3f2626c8⟩,
  ⟨0x4be388276869e23, 0xa688bd72ea17bbd07, 0x1165332f33178fc9, 0x262c52acacbeb9d36a⟩,
  ⟨0x328f3ae8ec4c373, 0xb18539f6386f3e494, 0x1fa9608e1b2515c, 0x6f2af2720da469c55⟩,
  ⟨0x4a4e435380a8078, 0xd0b78ca302220ae43, 0xbc303f58a33e6a3, 0x2109a0bb811e87f8db⟩,
  ⟨0x5ce1d42860d2096, 0xd0b78ca302220ae43, 0xbc303f58a33e6a3, 0x1a6e1a2f9a7ed32d7c⟩,
  ⟨0x8051a9797d8762c, 0x1cd5b394812f4f0629, 0x98c06a07868910d, 0x22533794c3056a596f⟩]

/-- for the precision of `float`, powers of ten from -64 to 38 -/
def certFloat : List FareyCert := [
  ⟨0x4d823dd81de8, 0x1d7088b1f8861eb675472d, 0x12c1d1cd4895, 0x71fd71166d2f30c95c49e⟩,
  ⟨0x60e2cd4e2562, 0x1d7088b1f8861eb675472d, 0x12c1d1cd4895, 0x5b3127452425c0a116a18⟩,
  ⟨0x251b7a103ca3, 0x120a63c9540166a25272fd, 0x12c1d1cd4895, 0x91e83ed506a2cdce8a9c0⟩,
  ⟨0x3312cd079df1, 0x13dd4af8ca7d0934e761bd, 0x12c1d1cd4895, 0x74b9cbdd9ee8a4a53bb00⟩,
  ⟨0x2afe8e39089a, 0xd60b2bb3eadedfb68600b, 0x29954301de7, 0xcf04804e1f6f10d4b94e⟩,
  ⟨0x18ec19bf8ef3, 0xc6846ee1421cf1a691b47, 0x29954301de7, 0x14b3a66e3657e81545bb0⟩,
  ⟨0x211a1f53891d, 0xd2f0392362b8168021f17, 0x29954301de7, 0x108fb8582b7986776afc0⟩,
  ⟨0x211a1f53891d, 0xa8c02db5e89345334e5ac, 0xb86311107a8, 0x3abfc3c5a59e57c43e92b⟩,
  ⟨0x12b261fe3f8b, 0x4c4060cbe13ddf98001c5, 0xe67bd554992, 0x3abfc3c5a59e57c43e92b⟩,
  ⟨0x5bf41a9cd61, 0x258065873ebef62b1a426, 0x14e14d7f82a7, 0x883fba4eea9c2a9e0a469⟩,
  ⟨0x5bf41a9cd61, 0x1e005138feff2b55ae9b8, 0x1b897149d6a9, 0x8fbfce9d2a5bf57375ed7⟩,
  ⟨0x58a84b491c6b, 0x17240258d282f36cb70ef1, 0x5728be80252, 0x16bfe5e0d578f53927dd3⟩,
  ⟨0x93a068b4198, 0x3da6d8aee4e0d8782f4a5, 0xd9e5dc405cd, 0x5aff978355e3d4e49f74c⟩,
  ⟨0x1b756794e831, 0x92c7e3a1575dae13eb836, 0xfecdf66d633, 0x55210af2727cd59bbc391⟩,
  ⟨0x72430f54dc9, 0x1e8a1ebc45d0af76e8494, 0x3b460c9a1d0, 0xfd7aa947c27d145d2dc7⟩,
  ⟨0x153a9764aaf8, 0x9140fbb187133ee793195, 0x210041560305, 0xe1cd4ed488b0c6fe46143⟩,
  ⟨0x1a893d3dd5b6, 0x9140fbb187133ee793195, 0x2b9d8d085881, 0xeebe3d57702eb85b3fb3e⟩,
  ⟨0xb5cc6091ee3, 0x31c1aff4f3cd5b8fe0049, 0x2b9d8d085881, 0xbefe9779268bc6af66298⟩,
  ⟨0xb5cc6091ee3, 0x4f9c4cbb1faef8e6333a8, 0x11514add3c4a, 0x7955d4556ad2ace5f9565⟩,
  ⟨0x320d8cab5894, 0x1188e6dcbaa309eb25fcb5, 0x8a8a56e9e25, 0x3088bb555deddec263bc2⟩,
  ⟨0x1438dea34625, 0x5aade2f19ca0946733803, 0x152c0899744a, 0x5ef0456d06c8052596259⟩,
  ⟨0x11d0280da325, 0x7fcd849e23b57fe9c23af, 0x5c497217425, 0x29620427f13c5c40f1602⟩,
  ⟨0x11d0280da325, 0x663e03b1b62accbb01c8c, 0x1491daf40b8a, 0x761086ed39dc75cd32b6b⟩,
  ⟨0x1855783dda3a, 0x6fbc526f052efef91f245, 0x4bc21b9ff713, 0x15bdd604978e7ea938491b⟩,
  ⟨0x3cd5ac9aa191, 0x1bef149bc14bbfbe47c914, 0x9d079d0cbef, 0x481ac1dac6da2b3f2257b⟩,
  ⟨0x3ea3bbc9675, 0x170299229b8b0418d5f9d, 0xdbf4dde44eb, 0x50cc9c61f6c636ee49ce6⟩,
  ⟨0x1613ec019238, 0x67cf358492513b071fc83, 0x77b8877f692b, 0x232ecb1311d57adada0660⟩,
  ⟨0x9fc8309d1de, 0x4b210ec2ca08e1c6c3b69, 0x3cff0772985, 0x1cae26c1c84859405c11a⟩,
  ⟨0x4fe4184e8ef, 0x1e0d391ab736c0b5e7e2a, 0x1b01be7b1711, 0xa28a956111d054fd63bc7⟩,
  ⟨0xf747988cab, 0x4a69bba3109f5d2722b1, 0x708b8677355, 0x21de272b5d910e849cf4c⟩,
  ⟨0xd465fabf57, 0x66441e6afd3ab1ab8724, 0x2b9a0540a9, 0x14fe514064b55c37dc75⟩,
  ⟨0x25fde5bcb3, 0xea24787885100a34440, 0x1a021a434d, 0xa049b9abe789bbd6945⟩,
  ⟨0xdf57caf7f, 0x44d2a6c5255441ec675, 0x20a835081, 0xa10300ef06418e290c⟩,
  ⟨0x1cb6f6d7b, 0xe284e2096efa5e3d6e, 0x34909285, 0x19ea9a36d686c458df⟩,
  ⟨0x792d2367, 0x2fcbae7e693269c37f, 0x6d2dc99, 0x2b103f4d7e769f42a⟩,
  ⟨0x1de1b103, 0x96dd127873979ac02, 0x21e4efd, 0xab1f55ec32171253⟩,
  ⟨0x568750f, 0x15d7c7416fc4402d6, 0x2978af1, 0xa78071cce60c233b⟩,
  ⟨0x1000000, 0x6765c793fa10079d, 0x74de24c11bcf5b6b5, 0x2f33d78a6ea9df590720883c2c8⟩,
  ⟨0x400000, 0x14adf4b7320334b9, 0xc90bc08993f4c9189, 0x40f620abbae2be96c67469b6f0a⟩,
  ⟨0x100000, 0x422ca8b0a00a425, 0x8432db8e5f952ed7ad, 0x222c2c7506ce59c740c5c40be53f⟩,
  ⟨0x20000, 0xd3c21bcecceda1, 0x49fe01f4a8cf1663661, 0x1e9a3b11d9300aa80bd999cc7ea76⟩,
  ⟨0x8000, 0x2a5a058fc295ed, 0xa349e27215461158fe5, 0x36071558eed0a0cb354c1cda0c881⟩,
  ⟨0x2000, 0x878678326eac9, 0x330716c3a6a5e56c0f79, 0xd81c5563bb42832de43d63cd0f796⟩,
  ⟨0x400, 0x1b1ae4d6e2ef5, 0x7b1a2591b5879622b55d, 0x3422c2a3358c4c852af5675a74b112⟩,
  ⟨0x100, 0x56bc75e2d631, 0x26782bbd88ba5eead96d1, 0xd08b0a8cd6313214afe672f074ce94⟩,
  ⟨0x40, 0x1158e460913d, 0xf6da68b70f539585d3255, 0x42e8e0ff28a29d4073593fed5ae5c8d⟩,
  ⟨0x8, 0x3782dace9d9, 0x3513a56384fa4f80288d51, 0x1704b3bfded815fc42e4bec2d74d5055⟩,
  ⟨0x2, 0xb1a2bc2ec5, 0x254a944eebbc6d764f3f483ad, 0xcf02292fff8ba2cc4a7ba569036bef3510⟩,
  ⟨0x1, 0x470de4df82, 0xcde66ba00e538d18a575656, 0x392614a1d73b36362bdc3f8ef9726c1ab⟩,
  ⟨0x1, 0x71afd498d0, 0x1ed7b636385609b4e9d0805, 0xdb2668089f6d7fe3ec65b1982b7d7c0f⟩,
  ⟨0x1, 0x5af3107a40, 0x376733a4b18dd13bbae2007, 0x13aee2aed40319ab4272bf21e8c3b57bf⟩,
  ⟨0x1, 0x48c2739500, 0x6a7c69878f17f5fd94d5637, 0x1e43e009f6ca7e85c879e42056be302ff⟩,
  ⟨0x1, 0x746a528800, 0x1dc04fca2516a9090ccf9052, 0xd877f600a3ac33f0dbc0e403472ef8fff⟩,
  ⟨0x1, 0x5d21dba000, 0x253063bcae5c534b50037466, 0xd877f600a3ac33f0dbc0e4005e201bfff⟩,
  ⟨0x1, 0x4a817c8000, 0x3a0cf42d42e14dc4ce13787, 0x10e51b576ce3d709a60faed8888277fff⟩,
  ⟨0x1, 0x7735940000, 0x88bac730aa12c4a9ffa08952, 0x3fab704ed74a11a096b7d3da5b5d67ffff⟩,
  ⟨0x1, 0x5f5e100000, 0x25e5eacb0647a96d5fc34ad, 0xe1e3eebec8d969447497874dd0cfffff⟩,
  ⟨0x1, 0x4c4b400000, 0x63ee17e71d501f673f9e13a, 0x1dc80ed52363271fe1fc610ac4c7fffff⟩,
  ⟨0x1, 0x7a12000000, 0x704966eba882daf25231dd1, 0x358ae0358ae0358ae0358adb2b1ffffff⟩,
  ⟨0x1, 0x61a8000000, 0x8c5bc0a692a391aee6be546, 0x358ae0358ae0358ae0358adfbefffffff⟩,
  ⟨0x1, 0x4e20000000, 0xaf72b0d0374c761aa06de97, 0x358ae0358ae0358ae0358add4dfffffff⟩,
  ⟨0x1, 0x7d00000000, 0x1fc66862ccec93352f99b96, 0xf83e0f83e0f83e0f83e0f83dffffffff⟩,
  ⟨0x1, 0x6400000000, 0xa3d70a3d70a3d70a3d70a3d, 0x3ffffffffffffffffffffffd3ffffffff⟩,
  ⟨0x1, 0x5000000000, 0xccccccccccccccccccccccc, 0x3ffffffffffffffffffffffbfffffffff⟩,
  ⟨0x0, 0x0, 0x0, 0x0⟩,
  ⟨0x0, 0x0, 0x0, 0x0⟩,
  ⟨0x0, 0x0, 0x0, 0x0⟩,
  ⟨0x0, 0x0, 0x0, 0x0⟩,
  ⟨0x0, 0x0, 0x0, 0x0⟩,
  ⟨0x0, 0x0, 0x0, 0x0⟩,
  ⟨0x0, 0x0, 0x0, 0x0⟩,
  ⟨0x0, 0x0, 0x0, 0x0⟩,
  ⟨0x0, 0x0, 0x0, 0x0⟩,
  ⟨0x0, 0x0, 0x0, 0x0⟩,
  ⟨0x0, 0x0, 0x0, 0x0⟩,
  ⟨0x0, 0x0, 0x0, 0x0⟩,
  ⟨0x0, 0x0, 0x0, 0x0⟩,
  ⟨0x0, 0x0, 0x0, 0x0⟩,
  ⟨0x0, 0x0, 0x0, 0x0⟩,
  ⟨0x0, 0x0, 0x0, 0x0⟩,
  ⟨0x0, 0x0, 0x0, 0x0⟩,
  ⟨0x0, 0x0, 0x0, 0x0⟩,
  ⟨0x0, 0x0, 0x0, 0x0⟩,
  ⟨0x0, 0x0, 0x0, 0x0⟩,
  ⟨0x0, 0x0, 0x0, 0x0⟩,
  ⟨0x0, 0x0, 0x0, 0x0⟩,
  ⟨0x0, 0x0, 0x0, 0x0⟩,
  ⟨0x0, 0x0, 0x0, 0x0⟩,
  ⟨0x0, 0x0, 0x0, 0x0⟩,
  ⟨0x0, 0x0, 0x0, 0x0⟩,
  ⟨0x0, 0x0, 0x0, 0x0⟩,
  ⟨0x0, 0x0, 0x0, 0x0⟩,
  ⟨0x0, 0x0, 0x0, 0x0⟩,
  ⟨0x0, 0x0, 0x0, 0x0⟩,
  ⟨0x0, 0x0, 0x0, 0x0⟩,
  ⟨0x0, 0x0, 0x0, 0x0⟩,
  ⟨0x0, 0x0, 0x0, 0x0⟩,
  ⟨0x0, 0x0, 0x0, 0x0⟩,
  ⟨0x0, 0x0, 0x0, 0x0⟩,
  ⟨0x0, 0x0, 0x0, 0x0⟩,
  ⟨0x0, 0x0, 0x0, 0x0⟩,
  ⟨0x0, 0x0, 0x0, 0x0⟩,
  ⟨0x0, 0x0, 0x0, 0x0⟩]

end Utki.FastFloat
