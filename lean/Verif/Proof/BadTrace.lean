import Verif.Proof.BadSbox

/-! The 32 lanes of an all-zero word group through the 56 rounds of the AVX2 build with the
alternative S-box lookup: every step is computed by the kernel (`decide +kernel`). -/

namespace Dvbcsa.Proof

/-- a block from its little-endian value -/
def unpack (v : Nat) : Blk := Blk.ofFn fun i => BitVec.ofNat 8 (v >>> (8 * i))

def badT0 : List Blk := List.map unpack [
  0x0, 0x0, 0x0, 0x0,
  0x0, 0x0, 0x0, 0x0,
  0x0, 0x0, 0x0, 0x0,
  0x0, 0x0, 0x0, 0x0,
  0x0, 0x0, 0x0, 0x0,
  0x0, 0x0, 0x0, 0x0,
  0x0, 0x0, 0x0, 0x0,
  0x0, 0x0, 0x0, 0x0]

def badT1 : List Blk := List.map unpack [
  0x3a003a0000000000, 0xd400d40000000000, 0x3a003a0000000000, 0xd400d40000000000,
  0x3a003a0000000000, 0xd400d40000000000, 0x3a003a0000000000, 0xd400d40000000000,
  0x3a003a0000000000, 0xd400d40000000000, 0x3a003a0000000000, 0xd400d40000000000,
  0x3a003a0000000000, 0xd400d40000000000, 0x3a003a0000000000, 0xd400d40000000000,
  0x3a003a0000000000, 0xd400d40000000000, 0x3a003a0000000000, 0xd400d40000000000,
  0x3a003a0000000000, 0xd400d40000000000, 0x3a003a0000000000, 0xd400d40000000000,
  0x3a003a0000000000, 0xd400d40000000000, 0x3a003a0000000000, 0xd400d40000000000,
  0x3a003a0000000000, 0xd400d40000000000, 0x3a003a0000000000, 0xd400d40000000000]

def badT2 : List Blk := List.map unpack [
  0x103a103a00000000, 0x4d404d400000000, 0x983a983a00000000, 0x1cd41cd400000000,
  0x103a103a00000000, 0x4d404d400000000, 0x983a983a00000000, 0x1cd41cd400000000,
  0x103a103a00000000, 0x4d404d400000000, 0x983a983a00000000, 0x1cd41cd400000000,
  0x103a103a00000000, 0x4d404d400000000, 0x983a983a00000000, 0x1cd41cd400000000,
  0x103a103a00000000, 0x4d404d400000000, 0x983a983a00000000, 0x1cd41cd400000000,
  0x103a103a00000000, 0x4d404d400000000, 0x983a983a00000000, 0x1cd41cd400000000,
  0x103a103a00000000, 0x4d404d400000000, 0x983a983a00000000, 0x1cd41cd400000000,
  0x103a103a00000000, 0x4d404d400000000, 0x983a983a00000000, 0x1cd41cd400000000]

def badT3 : List Blk := List.map unpack [
  0xe810d2103a000000, 0x59048d04d4000000, 0x339809983a000000, 0xc61c121cd4000000,
  0x1c1026103a000000, 0x3404e004d4000000, 0x17982d983a000000, 0xa61c721cd4000000,
  0xe810d2103a000000, 0x59048d04d4000000, 0x339809983a000000, 0xc61c121cd4000000,
  0x1c1026103a000000, 0x3404e004d4000000, 0x17982d983a000000, 0xa61c721cd4000000,
  0xe810d2103a000000, 0x59048d04d4000000, 0x339809983a000000, 0xc61c121cd4000000,
  0x1c1026103a000000, 0x3404e004d4000000, 0x17982d983a000000, 0xa61c721cd4000000,
  0xe810d2103a000000, 0x59048d04d4000000, 0x339809983a000000, 0xc61c121cd4000000,
  0x1c1026103a000000, 0x3404e004d4000000, 0x17982d983a000000, 0xa61c721cd4000000]

def badT4 : List Blk := List.map unpack [
  0xd8e8c8d2103a0000, 0x1d59198d04d40000, 0x3933a109983a0000, 0x56c64a121cd40000,
  0x31c1326103a0000, 0x823486e004d40000, 0x7617ee2d983a0000, 0xe5a6f9721cd40000,
  0x17e807d2103a0000, 0xa659a28d04d40000, 0x4e33d609983a0000, 0xb1c6ad121cd40000,
  0x701c6026103a0000, 0x453441e004d40000, 0x6f17f72d983a0000, 0xf3a6ef721cd40000,
  0xd8e8c8d2103a0000, 0x1d59198d04d40000, 0x3933a109983a0000, 0x56c64a121cd40000,
  0x31c1326103a0000, 0x823486e004d40000, 0x7617ee2d983a0000, 0xe5a6f9721cd40000,
  0x17e807d2103a0000, 0xa659a28d04d40000, 0x4e33d609983a0000, 0xb1c6ad121cd40000,
  0x701c6026103a0000, 0x453441e004d40000, 0x6f17f72d983a0000, 0xf3a6ef721cd40000]

def badT5 : List Blk := List.map unpack [
  0x1dd8f5c8d2103a00, 0x361d6f198d04d400, 0xa33990a109983a00, 0xca560c4a121cd400,
  0xb403a81326103a00, 0x6c825886e004d400, 0xc576d2ee2d983a00, 0x2be58df9721cd400,
  0xfe171607d2103a00, 0xfda6a4a28d04d400, 0xe74ed4d609983a00, 0xebb12dad121cd400,
  0xc270de6026103a00, 0x8945bd41e004d400, 0x726f65f72d983a00, 0xc5f363ef721cd400,
  0x70d898c8d2103a00, 0x451d1c198d04d400, 0x6f395ca109983a00, 0xf356354a121cd400,
  0x63037f1326103a00, 0xc382f786e004d400, 0x5d764aee2d983a00, 0x37e591f9721cd400,
  0x7e179607d2103a00, 0xf5a6aca28d04d400, 0x6a4e59d609983a00, 0xd1b117ad121cd400,
  0xbb70a76026103a00, 0xde45ea41e004d400, 0xaf6fb8f72d983a00, 0xfaf35cef721cd400]

def badT6 : List Blk := List.map unpack [
  0xa31da6f5c8d2103a, 0xca36e86f198d04d4, 0x4aa35390a109983a, 0x91ca870c4a121cd4,
  0xd9b4b8a81326103a, 0x1f6c5c5886e004d4, 0xc8c5d9d2ee2d983a, 0x192b1f8df9721cd4,
  0xd2fe6e1607d2103a, 0x8dfdf1a4a28d04d4, 0x53e747d4d609983a, 0x87eba32dad121cd4,
  0x1c214de6026103a, 0x28924bd41e004d4, 0xbd72eb65f72d983a, 0x7ec5db63ef721cd4,
  0x9b70ab98c8d2103a, 0x9e45da1c198d04d4, 0xa96f6b5ca109983a, 0x5af3d3354a121cd4,
  0xf4631d7f1326103a, 0x6dc336f786e004d4, 0x555d814aee2d983a, 0x27370a91f9721cd4,
  0x817ea89607d2103a, 0xaf558aca28d04d4, 0x576ae059d609983a, 0xa7d14917ad121cd4,
  0x9abb75a76026103a, 0x9cde67ea41e004d4, 0x1af09b8f72d983a, 0x2fa125cef721cd4]

def badT7 : List Blk := List.map unpack [
  0xe3a3f0a6cff2e810, 0xcbca4de8bbcd5904, 0xf24af353aa9b3398, 0xcd91cf87d89ec61c,
  0xefd963b892291c10, 0xfb1fc35c8c523404, 0xf9c856d9e8d41798, 0x5f19a51f592da61c,
  0x9cd27e6e2c3de810, 0x3c8df5f170765904, 0x7353a247eeec3398, 0xc787c8a3f979c61c,
  0x47016814e45a1c10, 0xa302512469953404, 0x3cbd81eb5fcd1798, 0x747e0adbb73ba61c,
  0xda9b4daba2f2e810, 0x9d9e33dac8cd5904, 0xdca98e6b669b3398, 0x3d5ab8d3e19ec61c,
  0x75f4351d45291c10, 0x676d663623523404, 0x7155028170d41798, 0x4727800a452da61c,
  0xd0815da8ac3de810, 0xd0a375878765904, 0x5257fae063ec3398, 0x85a7dd49c379c61c,
  0x8a9a51759d5a1c10, 0x989c07673e953404, 0x4901c70982cd1798, 0x1302ab12883ba61c]

def badT8 : List Blk := List.map unpack [
  0xdae378f0b6dfe2e8, 0x9dcb554decbfc959, 0x38f224f3cb320333, 0x54cd60cf9bc482c6,
  0x1bef8063a882391c, 0x96fb08c358885634, 0x53f93d5641704c17, 0x875f76a5034531a6,
  0xa99c4f7e7e3c2de8, 0x5a3cb3f5f5747259, 0x6573a5a2df767433, 0x63c76ac8bfe565c6,
  0x99470b6804f44a1c, 0x1ea39251206d9134, 0xc03c818173c75517, 0x9740a0ac7ab27a6,
  0x80da4a4dbbb2e2e8, 0x89d9133deccc959, 0x44dc4b8ef3fe0333, 0x213d93b8cffd82c6,
  0x3750d350d55391c, 0x8267326632275634, 0x9714e0219e84c17, 0x1247b180165931a6,
  0x2cd0165db8bc2de8, 0x700da4375c7c7259, 0x41524bfa78fb7433, 0x38593dd55df65c6,
  0xcc8a4e51658d4a1c, 0x3998b107633a9134, 0xb24994c7911a5517, 0xcc132cab0e9427a6]

def badT9 : List Blk := List.map unpack [
  0x93dade78185e37e2, 0x8e9dbd5514b5e6c9, 0xa3383d24c0f80103, 0xca547660095d0282,
  0xa81b85807fb49e39, 0x58962a08f76cbc56, 0xbd53473d4156674c, 0x7e87a37603a5e331,
  0x6aa9f44f9696d42d, 0xd15a6db3acac2d72, 0x9765e1a591ec4574, 0xae634b6a0e792365,
  0xe599c40b7418e84a, 0x6b1e299265145991, 0x3cc0a9819664d055, 0x74095a0aac610d27,
  0xd680c24aa5535ae2, 0xad0889916a8795c9, 0xfd44d64bbdc0cd03, 0x7f21ad937e093b82,
  0xc103630d29114939, 0xb82c33252061356, 0x5509194e150eff4c, 0x271216b126b0ff31,
  0xf42c1b16b550542d, 0x6d7096a46e052572, 0x7a416d4bc94bc874, 0xd50373931b931965,
  0xe0cc9b4e4d79914a, 0x49399eb133570e91, 0x94b28294d0860d55, 0x2ccc882c0da83227]

def badT10 : List Blk := List.map unpack [
  0xd693fade9afabc37, 0xad8eddbd9cdd7ce6, 0xda3be3d27c3fb01, 0x32cafc76e28bdf02,
  0x74a8a985b9468d9e, 0x65585a2a5ea13abc, 0xecbd2047710d1a67, 0x797e40a3473294e3,
  0xfa6a51f462bbbbd4, 0xddd1076dc1dede2d, 0x4d9784e1d1e59845, 0x33ae284b0f6b1c23,
  0xbae5b7c4413e52e8, 0xdc6bee2903f48559, 0x653c4fa9d4c331d0, 0x6374b35a2d8b460d,
  0x67d6d2c2a847b15a, 0xe3ad8d8958a34e95, 0xd2fd17d648bec3cd, 0x8d7fa6ad11fc8b3b,
  0x1cc1366334102849, 0x340be4c364045013, 0x49559119025942ff, 0x13270e16801781ff,
  0x6ef4ff1b3b987d54, 0xf16dff96d61c7725, 0x6a7a7a6d3fbd3fc8, 0xd1d5d573f67ef619,
  0xbfe0889b04073391, 0xfe49189e20a2c60e, 0xc894aa82c185d30d, 0x192cd8880b2a8f32]

def badT11 : List Blk := List.map unpack [
  0x17d605fae9adcdbc, 0xa6ad22dd5b7a3b7c, 0x870d15be3c26c2fb, 0xaa3226fc74e089df,
  0x24741da91b27d88d, 0x6065365a96e21d3a, 0x64eca82020166a1a, 0x6179584040a4d194,
  0x49fac95120b66fbb, 0x13dd1b0740ecf3de, 0x984ddf84a494a098, 0x1c33bf28682c481c,
  0xbcbadeb72ca9d652, 0x7cdcbdee705aad85, 0x8a655d4f79041331, 0x986337b357208646,
  0xa7676dd298f21db1, 0xeae3738d1ccd364e, 0x94d250171b8573c3, 0x2c8d05a6962ac78b,
  0x991c44362a7d5928, 0x1e3421e4d0771750, 0x10498491e6fda642, 0x413280ee97fe881,
  0xeb6ef6ff4f6fcc7d, 0xdbf1edffb3f33977, 0x576aba7aa5f7753f, 0xa7d1dcd56aef67f6,
  0x4cbfef880a959633, 0x31fefb18902eacc6, 0x4fc836aa8fcc88d3, 0xb319e4d8ba39188f]

def badT12 : List Blk := List.map unpack [
  0x5917b905465511cd, 0x17a65e22a127063b, 0xa487581545c7ddc2, 0x68aa152623ab3f89,
  0xa624301d2496aad8, 0xe860443660acd81d, 0x6e64f4a83a3a0c6a, 0xf1616d58d4d430d1,
  0xea49e6c9ea9b0d6f, 0xd913e91bd99e32f3, 0x819804df1c3c0ca0, 0xa1c20bf34743048,
  0xbcbc9ddee57efbd6, 0x7c7c3ebd6bf5dfad, 0x5d8a8c5d7e483513, 0x37983837f5116686,
  0x8aa7736d6329431d, 0x98eac773c3528336, 0xa2940950d4d84673, 0xc82c12052d1da1c7,
  0xef99d9441e025559, 0xfb1e1f21b4802717, 0xe1102684d3a4bfa6, 0x4b04e0288f68fee8,
  0xcdebaaf6823212cc, 0x3bdbd8ed88c48439, 0x975795ba459ac875, 0xaea72edc239c1967,
  0x734cdcefbb39a696, 0xc7313dfbde56e8ac, 0x144fff36795c1f88, 0x24b3ffe45735b618]

def badT13 : List Blk := List.map unpack [
  0x2e5957b9c88b9811, 0xf017a75e199a1c06, 0x27a44058d78705dd, 0xe2680115afaa223f,
  0x55a6fd30c5fc4eaa, 0x27e87f442b7db1d8, 0x866e6bf4c250500c, 0xa8f1d36d89050530,
  0x30eac2e6a685f40d, 0x44d989e9e82a6d32, 0xe181fe047fbc9c0c, 0x4b0afd20f77c3c30,
  0x6dbc479d0833a8fb, 0x737ca33e10c658df, 0xbe5d5f8c4e6d5b35, 0xfc37b738b1739766,
  0x488a5573707e3443, 0x119827c745f56483, 0x6ea2840923a7ab46, 0xf1c82812c2eadaa1,
  0x70efbcd91d475b55, 0x45fb7c1f36a39727, 0xd9e11526227502bf, 0x1f4b26e0c06780fe,
  0x7ccd71aa3a4efe12, 0x753b47d8d4b1fd84, 0xdd972195cf30efc8, 0x3fae422ebb44fb19,
  0xf3737adc792dafa6, 0xcfc7d53d5772fae8, 0xc2141effbef1d41f, 0x8924b4fffc4f2db6]

def badT14 : List Blk := List.map unpack [
  0xd82e8d57a8d99a98, 0x1df03aa7581f9c1c, 0x9b274c40850a5a05, 0x9ee231012a909522,
  0x25551dfd9a6f564e, 0x6227367f9cf3a5b1, 0xc686c36bf8ce5c50, 0xa9a88bd35db93505,
  0x2330e0c2ebab88f4, 0xc2444989dbda186d, 0x83e170fe0873b09c, 0x8a4b45fd10c74c3c,
  0xb06da14766f3c8a8, 0x4c734aa3e1cf1958, 0xe2be7b5fb97b585b, 0xc9fcd7b75ed71597,
  0x2a48225530333d34, 0xd011c02744c67664, 0x2c6e88844f65e1ab, 0x70f11828b3634bda,
  0xae70b6bc8c48125b, 0xf845ec7c38118497, 0x6ad9bd15999dca02, 0xd11f7e261e3e9980,
  0x417cc671b8285cfe, 0x375a9475c5035fd, 0x52ddef215d07f8ef, 0x853ffb4237a25dfb,
  0x11f37a7a7adf8baf, 0x6cfd5d5d5bf9afa, 0xb6c2b11ee0a1eed4, 0xec894eb4494af92d]

def badT15 : List Blk := List.map unpack [
  0x3ed8938dcf30419a, 0xf41d8e3abb44039c, 0x129bd04c45800f5a, 0x849e0d312308b295,
  0x6d254d1db3d42156, 0x73623336ce2d42a5, 0x50c68cc33ba89e5c, 0x5a9388bd658bc35,
  0x352335e0361f5f88, 0x66c26649e4b6b718, 0xe58368706294efb0, 0x6b8a5145c12cfb4c,
  0x39b0e8a1efce5bc8, 0x564c594afbb99719, 0x65e26f7b04e22058, 0x63c9f3d720c94015,
  0x592a5e226104073d, 0x17d0b5c04320a276, 0xa22c06882fe4cee1, 0xc870a018f269b94b,
  0xbcae3fb6e7d71312, 0x7cf8f6ecebaf8684, 0x426a5ebd179b9fca, 0x81d1b57ea69ebe99,
  0xa34194c68f46d65c, 0xca032ca9baa1ad35, 0x2b52c7efceb2e8f8, 0xd285abfbb9cc595d,
  0x6511257ad5d5708b, 0x630662d52f2f459a, 0xa9b696b1ca3475ee, 0x5aecac4e996467f9]

def badT16 : List Blk := List.map unpack [
  0x5c3e3b931755aa41, 0x35f4d68ea627d803, 0x8127ed0161fda0f, 0x1084f50da4b69db2,
  0xc36dfc4d4be58221, 0x8b737d33936b8842, 0x4750c98c9f67f49e, 0xa3051b38bee36dbc,
  0xdb35933568be975f, 0x9f668e6651fcaeb7, 0x2ae52b68c0d224ef, 0xd06bd251098d60fb,
  0x6939fce86927065b, 0x53567d5953e2a097, 0x6b65cb6f235cba20, 0xd3639bf3c235dc40,
  0x7359675e1f5c3907, 0xc717e3b5b63556a2, 0x17a28c0669ce05ce, 0xa6c838a053b922b9,
  0x51bcc93fa4f5c513, 0x77c1bf6686f2b86, 0xd442df5e77dd519f, 0x2d81bfb5e73f07be,
  0x63a39c949ad31ad6, 0xc3ca3c2c9c8f94ad, 0xae2b10c717364ae8, 0xf8d204aba6e49159,
  0x56652f25f15e5e70, 0xa563f2624fb5b545, 0xaca978965f24da75, 0x785a55acb7609d67]

def badT17 : List Blk := List.map unpack [
  0xa55c343bd25614aa, 0x6a3564d68da524d8, 0x8b08137edf1910da, 0x9a1086f5bf16049d,
  0xc0c35bfc6c6ac482, 0x98b977d71d12988, 0xff478ac91201f9f4, 0xffa3981b84025f6d,
  0xa3db7a936a37e197, 0xca9fd58ed1e64bae, 0xb82a0c2b872f3d24, 0x5cd030d2aaf27660,
  0x31698afcb3327c06, 0x4653987dcec475a0, 0xbe6baccb4f037cba, 0xfcd3789bb38275dc,
  0xa173406759185b39, 0x4ac701e317149756, 0xa0175e8cc8a70005, 0x48a6b53819ea0022,
  0xdf513ac92cb7e6c5, 0xbf07d41b70eee92b, 0x7fd424dfc1e84251, 0xf72d60bf0b598107,
  0x53638d9c424c051a, 0x87c33a3c81312294, 0x49ae74102fffde4a, 0x13f86504f2ffbd91,
  0x9c560e2f55812e5e, 0x3ca5b0f2270af0b5, 0x82ac9b78e32a51da, 0x88789e55cbd0079d]

def badT18 : List Blk := List.map unpack [
  0xf5a585349178fc14, 0x6f6a2a640e557d24, 0x508b3313a405c310, 0x59ac68668228b04,
  0xd5c08e5b7eeee8c4, 0x2f09b897f5f95929, 0xe8ff928a3de6f5f9, 0x59ff8c9876e96f5f,
  0x16a3447a04fda0e1, 0xa4ca21d5207f484b, 0x5bb89a0c0fa30b3d, 0x975c9c30b2ca9276,
  0xaf31c18afab5347c, 0xfa460b98dd6e6475, 0x13be39ac71f5b97c, 0x86fc5678476f5e75,
  0xa7a1d2405e60215b, 0xea4a8d01b5414297, 0x78a00c5e89cda200, 0x554830b51a3bc800,
  0xe1dfc53a0ce972e6, 0x4bbf2bd4305bc5e9, 0xb57ff3248e90b942, 0x6ef7cf60b80c5e81,
  0x1953338d86585605, 0x1687c63aa815a522, 0xbb49f2745a65b5de, 0xde13cd6595636ebd,
  0xae9c7f0e710bdf2e, 0xf83cf7b04792bff0, 0x41823b9ba239f051, 0x388d69ec8564d07]

def badT19 : List Blk := List.map unpack [
  0xeef5288520856cfc, 0xf96f502a402a717d, 0x5550533303b415c3, 0x270587c6826c268b,
  0x3dd5f28e9fba2ae8, 0x762fcdb8bedcd059, 0xe3e8a99273c41ff5, 0xcb595a8cc729b66f,
  0xc11669449be51ca0, 0xba453219e6b3448, 0x255b6c9a31329e0b, 0x6297719c46c4bc92,
  0x68afe7c1f686c934, 0x51faeb0beda81b64, 0xb213ed39d00d89b9, 0xcc867b560d321a5e,
  0x57a7ddd21b053b21, 0xa7ea3f8d9622d642, 0x6f78ac0c5e89cda2, 0xf3557830b51a3bc8,
  0xdfe1a8c5dcea0f72, 0xbf4b582b3dd9b2c5, 0x6b526f366ccd2b9, 0xa06ee0cfe1398d5e,
  0xda19d53388835d56, 0x9d162fc6188a37a5, 0x52bb2ff2aa84bbb5, 0x85def2cdd828de6e,
  0x9aed07f205f25df, 0x12f80df740b762bf, 0xd641683bcaf368f0, 0xad0351d699cf514d]

def badT20 : List Blk := List.map unpack [
  0xf1ee5f2879dc796c, 0x4ff9b750573d5771, 0x3e55dd53f0c07715, 0xf4273f874d09e726,
  0xbe3d90f26677522a, 0xfc760ccde1e785d0, 0xa4e3aea96786311f, 0x68cbf85ae3a846b6,
  0x66c18969e43b451c, 0xe10b1a5369d62334, 0x2125eb6c913a399e, 0x4262db710ed456bc,
  0xe7689ce7f5c2b2c9, 0xeb513ceb6f89cc1b, 0xb6b25eed8069b489, 0xecccb57b08536c1a,
  0x2857baddf33a243b, 0x50a7dc3fcfd460d6, 0x6d6f78acaefc2bcd, 0x73f35578f87dd23b,
  0x81df90a8b7ae980f, 0xabf0c58eef81cb2, 0xd506fe264adf75d2, 0x2fa0fde091bf678d,
  0x48da66d565ded55d, 0x119de12f63bd2f37, 0xfa52532f471f31bb, 0xdd8587f2a3b646de,
  0x510936d0a0ff8025, 0x712e40d48ff0862, 0x88d64468cb3a0368, 0x18ad21519bd48251]

def badT21 : List Blk := List.map unpack [
  0xc3f1895f4415b079, 0x8b4f1ab721264c57, 0xd13eacdd46e5d577, 0xff4783fa16b2fe7,
  0xf6be8690d84c5d52, 0xedfca80c1d313785, 0x33a4e9aeb6789931, 0xc6685bf8ec551e46,
  0xec66538975f82745, 0x79e1871a675de223, 0x521a6ebf20fa439, 0x2242e8dbcdb26856,
  0xa6e7489c2e3c0bb2, 0xe8eb113cf07492cc, 0x97b6aa5e6409e0b4, 0xaeecd8b56112496c,
  0xe62882bae6c80124, 0xe95088dce9190260, 0x76dfa786163312b, 0xa273dd5543c346d2,
  0x48815390a7b8a198, 0x110a870cea5c4a1c, 0xc4d537fef4980d75, 0x292fe6fd6d1c3267,
  0x2f489566883883d5, 0xf2112ee118548a2f, 0xfafabb5394fca431, 0xddddde872c7d6846,
  0xf7519e36f585da80, 0xef07bce46f2a9d08, 0xe388544400a35203, 0xcb18252100ca8582]

def badT22 : List Blk := List.map unpack [
  0x85c3b289263d6cb0, 0x2a8bcc1ae076714c, 0x20d16bacaa3192d5, 0x400fd378d8468c2f,
  0xe7f65786c28a1e5d, 0xebeda7a88998b437, 0xd3333de99f874999, 0x8fc6765bbeaa131e,
  0xc5ecb353cc30bd27, 0x2b79ce8739447ee2, 0x8005b4a6d2cb36a4, 0x8226ce88d9be468,
  0xdba691482e9c8e0b, 0x9fe80e11f03cb892, 0x5970baaead0bde0, 0x22ae92d8d90d7e49,
  0xafe630829ec2ec01, 0xfae94488bc897902, 0x1e07c0fa534a4831, 0xb4a209dd87911146,
  0x82480d53083f20a1, 0x8811328710f6404a, 0xcbc4e4378b81ed0d, 0x9b2969e69a0a7b32,
  0xf2f1a95b35ded83, 0xb2f2942ece377b8a, 0x25faaebb62a5cda4, 0x62ddf8dec16a3b68,
  0xc4f7829eb67505da, 0x29ef88bcec67229d, 0x85e387544703a052, 0x2acbaa25a3824885]

def badT23 : List Blk := List.map unpack [
  0xfb851cb239968d6c, 0xdf2a34cc56ac3a71, 0x19205d6b797fe492, 0x164037d357f7698c,
  0x30e7e157db9fd71e, 0x44eb4ba79fbeafb4, 0x35d3463d70061e49, 0x668fa17645a0b413,
  0x55c5c5b374eb17bd, 0x272b2bce65dba67e, 0xe58092b402766f36, 0x6b088c6c80e5f3e4,
  0xfcdba9914325978e, 0x7d9f5a0e8362aeb8, 0x605500b4a0a30bd, 0xa02205929190447e,
  0x90af0430839fc3ec, 0xcfa20448abe8b79, 0x6a1e89c0cb627b48, 0xd1b41a099bc1d711,
  0x4682bb0df2a99e20, 0xa188de32cd5abc40, 0xeccba8e43a868ced, 0x799b5869d4a8387b,
  0x250f591a1630deed, 0x62b21794a444bd7b, 0xca2547ae1fc601cd, 0x9962a3f8b6a9023b,
  0xc0c4bc82446caf05, 0x9297c882171fa22, 0xec852f87061551a0, 0x792af2aaa0260748]

def badT24 : List Blk := List.map unpack [
  0xe5fbb11cde55fa8d, 0x6bdf4e34bd27dd3a, 0xd19185df9ebede4, 0x321614375fdb7b69,
  0x62306de149c581d7, 0xc144734b132b0aaf, 0x4535664674394f1e, 0x2366e1a16556b3b4,
  0x525534c50ec95617, 0x8527642bb01ba5a6, 0x19e559928234406f, 0x166b178c886401f3,
  0xafc50a91fcdab97, 0x907d055ab63bdaae, 0x60063050b6f7b730, 0x41a04405ecefee44,
  0xba905c04dc6f73c3, 0xdc0c35203df3c78b, 0x196a728988832a7b, 0x16d1c51a188ad0d7,
  0xd446ffbb2dd2899e, 0x2da1ffde728d1abc, 0x1ec26a809d76b8c, 0x279e05812afd338,
  0x76258e59f7fbddde, 0xe562b817efdf3fbd, 0xfdca5a4763d20b01, 0x7f9995a3c38d9202,
  0x36c04fbc874169af, 0xe409b37caa0353fa, 0xedecb02f27a6b551, 0x7b794cf2e2e86e07]

def badT25 : List Blk := List.map unpack [
  0x8ae58cb19153d8fa, 0x986b384e0e871ddd, 0x6e0d2818b91d0fed, 0xf13250145e36b27b,
  0xef62b26d369e1281, 0xfbc1cc73e4bc840a, 0x77450366586a274f, 0xe72382e115d1e2b3,
  0xe527534d219de56, 0xb08567648d16bda5, 0xee19ed59fded5b40, 0xf9167b177f7b9701,
  0xb80a94503e885aab, 0x5c902c05f41895da, 0x8e60ec306086c7b7, 0xb841794441a8abee,
  0x62ba0d5cc71fac73, 0xc1dc3235abb678c7, 0x50196d72f2f3f82a, 0x51673c5cdcf5dd0,
  0x1cd4ddff25b34c89, 0x342d3fff62ce311a, 0xba01702624855b6b, 0xdc0245e0602a97d3,
  0x11766d8e872925dd, 0x6e573b8aa52623f, 0x2cfd3e5a4662d30b, 0x707ff495a1c18f92,
  0xd6364b4f1328ee69, 0xade493b38650f953, 0xfdedb6b07e76f7b5, 0x7f7bec4cf5e5ef6e]

def badT26 : List Blk := List.map unpack [
  0xad8afc8c4b6ba9d8, 0x7a987d3893d35a1d, 0x6e8c28f554f00f, 0xf138506f254db2,
  0xc4ef2db2ecb71f12, 0x29fb72cc79eeb684, 0x4477cd0329172527, 0x21e73b8252a662e2,
  0x5b0e1b7562844fde, 0x97b09667c128b3bd, 0xccee9ded19bdad5b, 0x39f93e7b167e7a97,
  0x81b87d94fb95235a, 0xa5c772cdf2ec295, 0xf48e51ec87d731c7, 0x6db80779aaaf46ab,
  0x9162db0d2fb46cac, 0xec19f32f26c7178, 0x3b50f06d58d8d9f8, 0xd6054d73151d1f5d,
  0xdd1c1ddd76ac3a4c, 0x3f34363fe578d431, 0xdba12704d4fee5b, 0x32dc844533b3f997,
  0x6211546d535af425, 0xc106257387956d62, 0x532c963e514d69d3, 0x8770acf40733538f,
  0x8fd6ad4b267a41ee, 0xbaad7a93e0d503f9, 0xafd71b605cbc3f7, 0x907f47ec229b8bef]

def badT27 : List Blk := List.map unpack [
  0xb3adbefc5493b3a9, 0xce7afc7d258ece5a, 0x10008c8c27fa5bf0, 0x4003838e2dd974d,
  0xecc4d02da0fea51f, 0x79290d7248fd6ab6, 0xd94455cd240e3025, 0x1f21273b60b04462,
  0x4f5ba01babbc5a4f, 0xb3974896da7c95b3, 0x3ccc329db642e6ad, 0x7439c43eec81e97a,
  0x6681807dcea1cf23, 0xe10a0877b94abbc2, 0xaaf4e7512b401031, 0xd86deb07d2010446,
  0x4f917bdba183186c, 0xb30ed79f4a8a1471, 0x403bd1f095a020d9, 0x1d60f4d2e48401f,
  0x2cdd6d1d913ae03a, 0x703f73360ed449d4, 0x4b0d3d122b1614ee, 0x93327684d2a424f9,
  0xc262045448767ff4, 0x89c1202511e5f76d, 0x1c535b96ed829e69, 0x348797ac7b88bc53,
  0x148f19ada5c89441, 0x24ba167a6a192c03, 0x290ad07141f23cc3, 0x52900d4703cd748b]

def badT28 : List Blk := List.map unpack [
  0x27b37dbe55fd3ab3, 0xe2ce77fc277fd4ce, 0x3b108e8c7cd70a5b, 0xd604b83875af9097,
  0x8aec88d032bfe1a5, 0x9879180dc4fe4b6a, 0x3fd92c55e8012b30, 0xf61f70275902d244,
  0xf64f92a054e4f35a, 0xedb38c482569cf95, 0x9f3cdf32301befe6, 0xbe74bfc44496fbe9,
  0xf866ba805eed82cf, 0x5de1dc08b57b88bb, 0x26aa1fe7601a7110, 0xe0d8b6eb41944704,
  0xbc4f6d7bb7cdef18, 0x7cb373d7ee3bfb14, 0x5740acd1294c7920, 0xa701780f52315740,
  0xfc2c946d27ab00e0, 0x7d702c73e2da0049, 0xb04b893dfcc5f814, 0x4c931a767d2b5d24,
  0x1ac21204a0bc827f, 0x94898420487c88f7, 0xdf1ca05bff84eb9e, 0xbf344897ff28dbbc,
  0x9614e819ece48994, 0xac24591679691a2c, 0xb829abd0b282313c, 0x5c52da0dcc884674]

def badT29 : List Blk := List.map unpack [
  0x7227047d0de64e3a, 0xc5e2207732e9b1d4, 0x883b208ed7278c0a, 0x18d640b8afe23890,
  0x9a8ac28875971ae1, 0x9c98891867ae944b, 0x123f032c65d8312b, 0x84f68270631d46d2,
  0xdf68f92fa0ebef3, 0x32edba8cddb0fccf, 0xb9f4fdfd4d6fdef, 0x92beb3bf2dad7ffb,
  0x13f877ba4f912282, 0x865de7dcb30ec088, 0x4226c81ff7700a71, 0x81e019b6ef459047,
  0x4abc496d63afd5ef, 0x917c1373c3fa2ffb, 0xab57e4acf1096c79, 0xdaa769784f127157,
  0x70fc75948dc74b00, 0x457d672c3aab9300, 0xa4b0bb8929e8d1f8, 0x684cde1a52590f5d,
  0x821a86127bdfc382, 0x8894a884d7bf8b88, 0x7adf19a0c5611aeb, 0xd5bf16482b4394db,
  0xc596abe88d787089, 0x2bacda593a55451a, 0xf6b871abec8ebe31, 0xed5c47da79b8fc46]

def badT30 : List Blk := List.map unpack [
  0x3072f3044737dc4e, 0x44c5cf20a3e63db1, 0x7c880f2084dd2d8c, 0x7518b240283f7238,
  0xa19ab4c26994761a, 0x4a9c6c89532ce594, 0x57129903074ef331, 0xa7841e82a2b1cf46,
  0x340de58f6109fdbe, 0x64326bba43127ffc, 0xef0bb04f303b39fd, 0xfb924cb344d6567f,
  0xa513a77738cd1322, 0x6a86eae7543b86c0, 0x3a42a3c86e86010a, 0xd481ca19f1a80290,
  0xd74a8149828c40d5, 0xaf910a138838012f, 0x10ab17e4d588706c, 0x4daa6692f184571,
  0x8370e375948dc74b, 0x8a45cb672c3aab93, 0x3ba403bb71d110d1, 0xd66882de470f040f,
  0x6a826c8690f95dc3, 0xd18871a80c5f378b, 0xf07a13194b2e8a1a, 0x4dd5861693f09894,
  0x22c5c4ab6104f170, 0xc02b29da43204f45, 0xd6f633719addbfbe, 0xadedc6479c3ffefc]

def badT31 : List Blk := List.map unpack [
  0x4d30eaf34a0979dc, 0x3344d9cf9112573d, 0xb07c0e0fac08512d, 0x4c75b0b278100772,
  0x2aa10fb4d8738e76, 0xd04ab26c1dc7b8e5, 0xf357089932367ff3, 0xcfa7101ec4e4f7cf,
  0xf33424e531dfb7fd, 0xcf64606b46bfee7f, 0x29ef5cb0b2cdc639, 0x52fb354ccc3ba956,
  0xca52ca7551aef13, 0x306a70ea2794fb86, 0xd03a60a3c2648c01, 0xdd441ca89613802,
  0x51d7a6819c575940, 0x7afe80a3ca71701, 0x9a104b1788b9e470, 0x9c0493a6185e6945,
  0x4683dfe33edfc6c7, 0xa18abfcbf4bfa9ab, 0x5d3bc7036aa00010, 0x37d6ab82d1480004,
  0xac6af86c45533a5d, 0x78d15d712387d437, 0xf6f073130351348a, 0xed4dc78682076498,
  0xc422e7c4db1174f1, 0x29c0eb299f06654f, 0x9ed69d33cf2463bf, 0xbcad3ec6bb60c3fe]

def badT32 : List Blk := List.map unpack [
  0xbf4dc9ea2f96d579, 0xfe331bd9f2ac2f57, 0xd2b04f0e22812551, 0x8d4cb3b0c00a6207,
  0x672a660fc2ae058e, 0xe3d0e1b289f822b8, 0x91f357086ac1c57f, 0xecfa710d10b2bf7,
  0xa6f35e2418cc22b7, 0xe8cfb5601439c0ee, 0x8c29a25c898bf4c6, 0x3852c8351a9a6da9,
  0xbe0c412cb44609ef, 0xfc3003706ca112fb, 0xf3d07460a2c3658c, 0xcf0d6541c88b6338,
  0xed51d2a6c1dc1759, 0x7b078de80b3da617, 0x829a254b67f8c9e4, 0x889c6293e35d1b69,
  0xa046d1df24f918c6, 0x48a10fbf605f14a9, 0xb15db0c7137ab000, 0x4e374cab86d54c00,
  0x4facfbf831180e3a, 0xb378df5d4614b0d4, 0x89f697739989db34, 0x1aedaec71e1a9f64,
  0x44c44ce7352ae074, 0x212931eb66d04965, 0x879e619d8c709b63, 0xaabc433e38459ec3]

def badT33 : List Blk := List.map unpack [
  0xc6bf0cc99356efd5, 0xa9fe301b8ea5fb2f, 0x37d2804f5f73d025, 0xe68d08b3b7c70d62,
  0x3d670166814c2005, 0x76e302e10a314022, 0x2891e6577715bec5, 0x500ee9a7e726fc2b,
  0xcea6295e93af7b22, 0xb9e852b58efad7c0, 0x328cf9a29a4f4df4, 0xc4385fc89cb3336d,
  0xabbe2441c35ba909, 0xdafc60038b975a12, 0x6df30574ec2e4f65, 0x73cf226579f0b363,
  0x14edc5d2ff988517, 0x247b2b8dff1c2aa6, 0xe9824c25af831cc9, 0x5b883162fa8a341b,
  0x63a0a0d119e23f18, 0xc348480f16c9f614, 0xdcb17bb0c7137ab0, 0x3d4ed74cab86d54c,
  0x1e4fbafbc20b220e, 0xb4b3dcdf8992c0b0, 0xb889a79747adbddb, 0x5c1aeaaea37a7e9f,
  0x8e44564c93415ee0, 0xb821a5318e03b549, 0xc387f561feef139b, 0x8baa6f43fdfb869e]

def badT34 : List Blk := List.map unpack [
  0x54c6570c1c4683ef, 0x25a9a73034a18afb, 0xfa376c806a7a56d0, 0xdde67108d1d5a50d,
  0x63d330163844920, 0xa076c602c3281340, 0x7328c9e692b2d0be, 0xc7501be98ccc0dfc,
  0x96ce50297cb18d7b, 0xacb90552754e3ad7, 0x6e321df9566ebb4d, 0xf1c4365fa5f1de33,
  0xc4aba32448ca52a9, 0x29daca601199855a, 0x4b6d470511894b4f, 0x9373a322061a93b3,
  0xdf146fc5c5e88f85, 0xbf24f32b2b59ba2a, 0x79e90c4cec664a1c, 0x575b303179e19134,
  0x526350a0c901fa3f, 0x85c305481b02ddf6, 0x48dc527b0077a37a, 0x113d85d700e7cad5,
  0xb1ed8baf5cc0522, 0x92b41ddc6f3922c0, 0x75b879a74c9c76bd, 0x675c57ea313ce57e,
  0xc8ed556ac73a15e, 0x30b82fa578c74ab5, 0xc5c389f5fa657413, 0x2b8b1a6fdd636586]

def badT35 : List Blk := List.map unpack [
  0x9e54bd57e3f3a983, 0xbc257ea7cbcf5a8a, 0xaafa886c50baaa56, 0xd8dd187105dcd8a5,
  0xbb0695332143a449, 0xdea02ec642836813, 0x187367c9582c0cd0, 0x14c7e31b1570300d,
  0x13960b505207ca8d, 0x86ac920585a2993a, 0x976e0f1db41b23bb, 0xaef1b2366c96c2de,
  0xf7c47ba38de16352, 0xef29d7ca3a4bc385, 0x464b5b474a5ec64b, 0xa19397a391b5a993,
  0xb1df066f40406d8f, 0x4ebfa0f3010173ba, 0x2279cc0c50f07a4a, 0xc0573930054dd591,
  0x215269509ff63efa, 0x42855305beedf4dd, 0x2848a552017a0da3, 0x50116a8502d532ca,
  0xda0b9dd898d7ee05, 0x9d923e1d1caff922, 0xa575f6791af12176, 0x6a67ed57944f42e5,
  0x3c0c72d508f22da1, 0x7430c52f10cd724a, 0xb7c50a89e6e97674, 0xee2b901ae95be565]

def badT36 : List Blk := List.map unpack [
  0xa09e7cbdd46070a9, 0x48bc757e2d41455a, 0xf1aa2f883a06ecaa, 0x4fd8f218d4a079d8,
  0x22bb89957a680aa4, 0xc0de1a2ed5519068, 0x8918c2671988fc0c, 0x1a1489e316187d30,
  0x3a13c70bdddf8aca, 0xd486ab923fbf9899, 0x6097410fa60fa023, 0x41ae03b2e8b248c2,
  0x45f7097bf1dfb363, 0x23ef12d74fbfcec3, 0xa346655b0c0115c6, 0xcaa16397300226a9,
  0xffb17106e0cfcf6d, 0xff4e47a049bbbb73, 0xad22becc461aba7a, 0x7ac0fc39a194dcd5,
  0xd721cc69aa650c3e, 0xaf423953d86330f4, 0x822896a5f1a2d90d, 0x8850ac6a4fc81f32,
  0xaada349ddd9dd2ee, 0xd89d643e3f3e8df9, 0x23a50bf60f6c8721, 0xc26a92edb271aa42,
  0xd3c1d7274a9532d, 0x327436c5655a8772, 0xf9b7d10afd929d76, 0x5fee0f907f8c3ee5]

def badT37 : List Blk := List.map unpack [
  0x73a0637c147dc970, 0xc748c37524771b45, 0x7af1572f2290acec, 0xd54fa7f2c00c7879,
  0xf6226c8931decc0a, 0xedc0711a46bd3990, 0x98896bc26b1584fc, 0x1c1ad389d326287d,
  0x453aa6c7c117158a, 0x23d4e8ab0ba62698, 0x9260e3412c852ca0, 0x8c41cb03702a7048,
  0x8545dc091892bcb3, 0x2a233d12148c7cce, 0xe0a353659dcac715, 0x49ca87633e99ab26,
  0x31ffda716b8da2cf, 0x46ff9d47d33ac8bb, 0xabad7bbeb63c60ba, 0xda7ad7fcec7441dc,
  0xe3d7d2cc57945b0c, 0xcbaf8d39a72c9730, 0x67825e96a8fcafd9, 0xe388b5ac587dfa1f,
  0x45aa1534733373d2, 0x23d82664c7c6c78d, 0xd223ef0bd72e4d87, 0x8dc2fb92aff033aa,
  0x720d951d5f598453, 0xc5322e36b7172887, 0xef979d17c8be49d, 0xb05f570f759a693e]

def badT38 : List Blk := List.map unpack [
  0x2e73e8630c640dc9, 0xf0c759c33061321b, 0xe57a5d57c3ce7cac, 0x6bd537a78bb97578,
  0x79f6276c833bd4cc, 0x57ede2718ad62d39, 0xb98276b3e97e984, 0x921ce2d3f4ae5b28,
  0x8145cea64d4b9d15, 0xa23b9e833933e26, 0xe19200e3e18c252c, 0x4b8c00cb4b386270,
  0x23853cdcbaab21bc, 0xc22a743ddcda427c, 0xb7e057537088dfc7, 0xee49a7874518bfab,
  0x643154dabea442a2, 0x6146259dfc6881c8, 0x49ab5e7b040c8660, 0x13dab5d72030a841,
  0x29e364d2c05b985b, 0x52cb618d09971c97, 0x7c67d55e4f7125af, 0x75e32fb5b34762fa,
  0xef456815e6a1e173, 0xfb235126e94a4bc7, 0x8fd2dfef8c50a94d, 0xba8dbffb38055a33,
  0x1072ec954e0c0a84, 0x4c5792eb1309028, 0x590e2b794ce116e4, 0x17b0d257314ba469]

def badT39 : List Blk := List.map unpack [
  0xae2e1fe8aac5ad0d, 0xf8f0b659d82b7a32, 0x2ce5945dfb6f627c, 0x706b2c37dff3c175,
  0x1f793227a04ff7d4, 0xb657c4e248b3ef2d, 0x3f0be827efba13e9, 0xf69259e2fbdc865b,
  0xbd815dceb3585e9d, 0x7e0a37b9ce15b53e, 0x63e15700cfcda025, 0xc34ba700bb3b4862,
  0xae23df3c60061721, 0xf8c2bf7441a0a642, 0xe2b7ea5794b74fdf, 0xc9eed9a72ceeb3bf,
  0xb9646454781c0642, 0x5e6161255534a081, 0x58496b5e1b646c86, 0x1513d3b5966171a8,
  0x2929a364899b0098, 0x5252ca611a9e001c, 0xcd7c65d5f1e0de25, 0x3b75632f4f49bd62,
  0x80ef49686695d2e1, 0x8fb1351e12e8d4b, 0x3b8fe8dfa2c11da9, 0xd6ba59bfc80b365a,
  0x951016ec11ca880a, 0x2e04a47906991890, 0xf0599b2b9da80516, 0x4d179ed23e5822a4]

def badT40 : List Blk := List.map unpack [
  0x2cae9e1fe5a7c8ad, 0x70f8bcb66bea197a, 0xce2c769421871362, 0xb970e52c42aa86c1,
  0x181f1c32f3749bf7, 0x14b634c4cf659eef, 0xc33f2ce8ce065313, 0x8bf67059b9a08786,
  0xe1bd995d532ec55e, 0x4b7e1e3787f02bb5, 0x1263245725eae8a0, 0x84c360a762d95948,
  0x25ae2cdf1d412717, 0x62f870bf3603e2a6, 0xd4e271ea884b684f, 0x2dc947d9189351b3,
  0x35b9e364163a5e06, 0x665ecb61a4d4b5a0, 0xb458f36bd89de26c, 0x6c15cfd31d3ec971,
  0x6e29efa3fc110300, 0xf152fbca7d068200, 0xb4cd9c65f0d4c5de, 0x6c3b3c634d2d2bbd,
  0xc0802c49898774d2, 0x90870131aaa658d, 0x1b3be8e8760b681d, 0x96d65959e5925136,
  0xd959016e61bc088, 0x322e0ca4e9960918, 0xddf08d9b3d8bbe05, 0x3f4d3a9e769afc22]

def badT41 : List Blk := List.map unpack [
  0xf62c519eb2480ac8, 0xed7007bccc119019, 0xffce5576f643e513, 0xffb927e5ed836b86,
  0x5718421cc504839b, 0xa71481342b208a9e, 0xe3c3d32cfbdd1553, 0xcb8b8f70df3f2687,
  0xfde13899030d70c5, 0x7f4b541e8232452b, 0x8712e324f7854ae8, 0xaa84cb60ef2a9159,
  0x6125f32cc80a5627, 0x4362cf701990a5e2, 0xf3d40e71a5c70468, 0xcf2db0476aab2051,
  0x4535b8e362103c5e, 0x23665ccbc10474b5, 0xfb4e2f307b4f1e2, 0xb26cc9cfa26c4fc9,
  0x706e0fefa3fc1103, 0x45f1b2fbca7d0682, 0xe3b4e09cbb2e0ac5, 0xcb6c493cdef0902b,
  0x6cc0032c9b5b5574, 0x710982709e972765, 0xeb1bbfe8f56b1668, 0xdb96fe596fd3a451,
  0x7f0d88909e6e93c0, 0xf732180cbcf18e09, 0xc9dde08d9e388ebe, 0x1b3f493abc54b8fc]

def badT42 : List Blk := List.map unpack [
  0x67f63a51567a800a, 0xe3edd407a5d50890, 0xcbff415565e550e5, 0x9bff0327636b056b,
  0xfd57f942875e9f83, 0x7fa75f81aab5be8a, 0x35e315d37fa88e15, 0x66cb268ff758b826,
  0x3cfd7c385cc6c870, 0x747f755435a91945, 0xa58704e3cc1f6d4a, 0x6aaa20cb39b67391,
  0x206122f30bef2d56, 0x4043c0cf92fb72a5, 0x10f3ac0e19cdaf04, 0x4cf78b0163bfa20,
  0xd245d9b8bd3c4e3c, 0x8d231f5c7e74b174, 0xd00f9ee211e556f1, 0xdb2bcc9066ba54f,
  0xe470e50feca0ff11, 0x69456bb27948ff06, 0xc0e31ae0597eeb0a, 0x9cb944917f5db90,
  0xa96cf20358ef2f55, 0x5a71cd8215fbf227, 0x47eb10bf809d0316, 0xa3db04fe083e82a4,
  0xec7fff88505eae93, 0x79f7ff1805b5f88e, 0x76c9fbe03320868e, 0xe51bdf49c640a8b8]

def badT43 : List Blk := List.map unpack [
  0x4867d63a5b5c7080, 0x11e3add497354508, 0xe2cb5a41b0800050, 0xc99b95034c080005,
  0xfbfd75f9c104dd9f, 0xdf7f675f0b203fbe, 0x45356015c66abd8e, 0x23664126a9d17eb8,
  0xfc3c2e7c482cb6c8, 0x7d74f0751170ec19, 0x78a5d404a986556d, 0x556a2d205aa82773,
  0xa9206022a55db92d, 0x5a4041c06a375e72, 0x7d1049ac0a1dc9af, 0x7704137890361bfa,
  0x88d2c3d98481004e, 0x188d8b1f280a00b1, 0xfbd0579e13e01456, 0xdf0da7bc864924a5,
  0x88e4dce51efdb1ff, 0x18693d6bb47f4eff, 0xb1c08c1aea5374eb, 0x4e093894d98765db,
  0x4a92df2560dba2f, 0x205a72cda532dcf2, 0x7c477710a9968b03, 0x75a3e7045aac9a82,
  0xa5ec6cff1bc3cdae, 0x6a7971ff968b3bf8, 0x647632fb6ebdae86, 0x61e5c4dff17ef8a8]

def badT44 : List Blk := List.map unpack [
  0x444881d6badbdc70, 0x21110aaddc9f3d45, 0x5ce2685a11e0d000, 0x35c9519506490d00,
  0x6bfb6675665e9bdd, 0xd3dfe167e1b59e3f, 0x7c45ee609b48e4bd, 0x7523f9419e11697e,
  0x53fcda2eb480e4b6, 0x877d9df06c0869ec, 0xb67806d469c4eb55, 0xec55a02d5329db27,
  0x3ba9f2600f8870b9, 0xd65acd41b218455e, 0x207d844903a5b2c9, 0x40772813826acc1b,
  0xc78838c397cacf00, 0xab18548bae99bb00, 0xcfb8157c845b614, 0x30df0aa71923ec24,
  0x5788fbdc1ae102b1, 0xa718df3d944b804e, 0x9ab1be8cf101b874, 0x9c4efc384f025c65,
  0xa904302ddd7922ba, 0x5a2044723f57c0dc, 0x5b7cfc7713aa958b, 0x97757de786d82e9a,
  0xf4a5f56c51b56dcd, 0x6d6a6f71076e733b, 0x1c64ab327de83bae, 0x3461dac47759d6f8]

def badT45 : List Blk := List.map unpack [
  0xdb44c981a6caabdc, 0x9f211b0ae899da3d, 0xc15c89685a11e0d0, 0xb351a519506490d,
  0xe46b3466a8bb839b, 0x69d364e158de8a9e, 0x427c0deedd26f5e4, 0x817532f93fe06f69,
  0x685305da980236e4, 0x5187229d1c80e469, 0xe6b63506813c91eb, 0xe9ec66a00a740edb,
  0xa63ba9f2d9b63170, 0xe8d65acd1fec4645, 0xb720ba8480ca6cb2, 0xee40dc28089971cc,
  0xc5c70e38c397cacf, 0x2babb0548bae99bb, 0xf30ca38143dc51b6, 0xcf30ca0a833d07ec,
  0xa0576cfb6dab5002, 0x48a771df73da0580, 0x359a85bef88575b8, 0x669c2afc5d2a675c,
  0xe6a942309767c322, 0xe95a8144aee38bc0, 0x3e5bf6fcfc982195, 0xf497ed7d7d1c422e,
  0x9cf4a3f5a19c786d, 0x3c6dca6f4a3c5573, 0xc41c0dab9cd3463b, 0x293432da3c8fa1d6]

def badT46 : List Blk := List.map unpack [
  0x72dbbcc95d7a16ab, 0xc59f7c1b37d5a4da, 0xf3c15489b88ac1e0, 0xcf0b251a5c980b49,
  0x2ae44734fd332083, 0xd069a3647fc6408a, 0xdc42b40d0a39c2f5, 0x3d816c329056896f,
  0x3768de053e7ce636, 0xe651bd22f475e9e4, 0xb8e67235ed6ad791, 0x5ce9c5667bd1af0e,
  0x4ca6c4a982a9c631, 0x31e8295a885aa946, 0x35b759ba3632786c, 0x66ee17dce4c45571,
  0x8ac50d0ef70c58ca, 0x982b32b0ef301599, 0x98f301a337f56a51, 0x1ccf02cae66fd107,
  0xc8a0536cf96fa950, 0x194887715ff35a05, 0xb535dc8506403d75, 0x6e663d2aa0017667,
  0xfbe66e4212b545c3, 0xdfe9f181846e238b, 0xc13eeff669690d21, 0xbf4fbed53533242,
  0x5a9c08a398ccf178, 0x953c10ca1c394f55, 0x6ec4d10d90a7e846, 0xf1290f320cea59a1]

def badT47 : List Blk := List.map unpack [
  0xf572d5bc62f6d116, 0x6fc52f7cc1ed0fa4, 0x18f3af5469586ac1, 0x14cffa255315d10b,
  0xaf2a8a47b77eb020, 0xfad098a3eef54c40, 0x3ddc44b4f8ffccc2, 0x763d216c5dff3989,
  0xff37a3de33084ae6, 0xffe6cabdc61091e9, 0xb3b8f172a47cfbd7, 0xce5c4fc56875dfaf,
  0x974c28c498b398c6, 0xae3150291cce1ca9, 0x53353259d65a5e78, 0x8766c417ad95b555,
  0x258a5e0dc43dc658, 0x6298b5322976a915, 0x9b982801f266a46a, 0x9e1c5002cde168d1,
  0xe0c811533ca93fa9, 0x49190687745af65a, 0x4cb50ddcf073353d, 0x316e323d4dc76676,
  0x17fbbe6e81d17645, 0xa6dffcf10a0fe523, 0x6fc1d5efd748480d, 0xf30b2ffbaf111132,
  0x875a1908dbe0b4f1, 0xaa9516109f496c4f, 0x3f6e44d14bd6e1e8, 0xf6f1210f93ad4b59]

def badT48 : List Blk := List.map unpack [
  0xbbf5ccd5aa74e0d1, 0xde6f392fd865490f, 0xdf1805af95a8996a, 0xbf1422fa2e581ed1,
  0x83af7a8a67975eb0, 0x8afad598e3aeb54c, 0xe53d3144763a3dcc, 0x6b764621e5d47639,
  0xc7ff45a338d5ee4a, 0xabff23ca542ff991, 0x17b368f1a573abfb, 0xa6ce514f6ac7dadf,
  0xf9979828025e7598, 0x5fae1c5080b5671c, 0x6b537b3221ae225e, 0xd387d7c442f8c0b5,
  0x3e25eb5e559c65c6, 0xf462dbb5273c63a9, 0xc9b41286b980ca4, 0x309e0350d31c3068,
  0xdce0d611fa95003f, 0x3d49ad06dd2e00f6, 0x9d4c990de1cd4e35, 0x3e311e324b3bb166,
  0x71171cbe2bc49476, 0x47a634fcd2292ce5, 0x796fc4d5e2da4548, 0x57f3292fc99d2311,
  0x34874a19f92a11b4, 0x64aa91165fd0066c, 0xf3fc14439a33ee1, 0xb2f60b2156caf44b]

def badT49 : List Blk := List.map unpack [
  0x61bbcacc047ba5e0, 0x43de993920d76a49, 0x77df1305c5ffc299, 0xe7bf86222bff891e,
  0x16834e7a3ad7275e, 0xa48ab1d5d4afe2b5, 0xbbe5773188baf63d, 0xde6be74618dced76,
  0x51c72445e9729fee, 0x7ab60235bc5bef9, 0xee17b7680a5e88ab, 0xf9a6ee5190b518da,
  0x52f97a98b09ac675, 0x855fd51c4c9ca967, 0x1b6b6c7b6c7ff022, 0x96d371d771f74dc0,
  0x3a3e7beb98935a65, 0xd4f4d7db1c8e9563, 0x7b0c30418ccf3c0c, 0xd730440338bb7430,
  0x18dcd0d62ec5aa00, 0x143d0dadf02bd800, 0xac9ded9938d4f84e, 0x783e7b1e542d5db1,
  0xb671f81cc85db294, 0xec475d341937cc2c, 0x71792dc49daa9245, 0x475772293ed88c23,
  0xf134484aad4d9e11, 0x4f6411917a33bc06, 0xc30fedc1a5d8423e, 0x8bb27b0b6a1d81f4]

def badT50 : List Blk := List.map unpack [
  0x166167ca2ce49ba5, 0xa443e39970699e6a, 0xf3773f139c5c66c2, 0xcfe7f6863c35e189,
  0x54162b4e24648927, 0x25a4d2b160611ae2, 0xeebb12770cb587f6, 0xf9de84e7306eaaed,
  0x651e124ab079c9f, 0xa0074b60daa23cbe, 0xe6ee76b7c3a1f588, 0xe9f9e5ee8b4a6f18,
  0xc552d87aedc5efc6, 0x2b851dd57b2bfba9, 0x3f1b186c594e5df0, 0xf696147117b1374d,
  0x333ab07b8efdf65a, 0xc6d44cd7b87fed95, 0xe67b18304d80c33c, 0xe9d7144433088b74,
  0xd81882d0d62ec5aa, 0x1d14880dadf02bd8, 0x8eac36edd7769af8, 0xb878e47bafe59c5d,
  0xbab68bf8885cc9b2, 0xdcec9a5d18351bcc, 0xd771ad2d81d8ef92, 0xaf477a720a1dfb8c,
  0xb2f135485bbc5c9e, 0xcc4f6611977c35bc, 0xd5c3e9edff9be642, 0x2f8b5b7bff9ee981]

def badT51 : List Blk := List.map unpack [
  0x4d1629676f89419b, 0x33a452e3f31a039e, 0x8ff38f3fd15e9e66, 0xbacfbaf60fb5bce1,
  0x7554ed2b69034389, 0x67257bd25382831a, 0xf9ee021281fa4387, 0x5ff980840add83aa,
  0x6606ffe1bb34989c, 0xe1a0ff4bde641c3c, 0xcfe692763f4b29f5, 0xbbe98ce5f693526f,
  0x1ec5f7d8bc2b03ef, 0xb42bef1d7cd282fb, 0x303f19189ca9be5d, 0x44f616143c5afc37,
  0x6033cab021d4a7f6, 0x41c6994c422deaed, 0x53e6a0180c71bcc3, 0x87e9481430477c8b,
  0x51d8ef827a7c84c5, 0x71dfb88d575282b, 0x418e7b36152f8e9a, 0x3b8d7e426f2b89c,
  0xbbba648b4a3aeec9, 0xdedc619a91d4f91b, 0x8ad7b9adbf134aef, 0x98af5e7afe8691fb,
  0x2ab24435d6c5225c, 0xd0cc2166ad2bc035, 0xefd598e9afbdd9e6, 0xfb2f1c5bfa7e1fe9]

def badT52 : List Blk := List.map unpack [
  0xf4d8029fcf41241, 0xb23308527d6d8403, 0x2e8fcf8f59b7389e, 0xf0babbba17ee54bc,
  0xde75feeda2e08a43, 0xbd67fd7bc8499883, 0x77f9d30295067d43, 0xe75f8f802ea07783,
  0x8f6650ff7d27a898, 0xbae105ff77e2581c, 0xeccf0c9283cabe29, 0x79bb308c8a99fc52,
  0x2f1ef9f73753c403, 0xf2b45fefe6872982, 0x6430d61945c1f4be, 0x6144ad16230b6dfc,
  0x9a6083ca46d722a7, 0x9c418a99a1afc0ea, 0x3753fba0dbcfb2bc, 0xe687df489fbbcc7c,
  0xca51cdef47bfb984, 0x99073bfba3fe5e28, 0x2a41de7bac8fb58e, 0xd003bdd778ba6eb8,
  0x6bbb77644283f3ee, 0xd3dee761818acff9, 0xd88a64b94250fc4a, 0x1d98615e81057d91,
  0x162af344698a9922, 0xa4d0cf2153981ec0, 0x4aef7c980f495bd9, 0x91fb751cb213971f]

def badT53 : List Blk := List.map unpack [
  0x8e0fdd8068bdb512, 0xb8b23f08517e6e84, 0x4c2eaccf11c72938, 0x31f078bb06ab5254,
  0x8fde1cfeaee1a38a, 0xbabd34fdf84bca98, 0x6f7702d341d6457d, 0xf3e7808f03ad2377,
  0x858f945067e5bfa8, 0x2aba2c05e36bfe58, 0x96eccf0cbbaae3be, 0xac79bb30ded8cbfc,
  0x92fd3f9f43450c4, 0x12f28f5f6d640529, 0x6d6483d6a7fb7ff4, 0x73618aadeadff76d,
  0xf09a25836de17022, 0x4d9c628a734b45c0, 0x4c3771fb1c6773b2, 0x31e647df34e3c7cc,
  0x90caffcd6bc33bb9, 0xc99ff3bd38bd65e, 0xbe2a3ddef52201b5, 0xfcd076bd6fc0026e,
  0xb56b53778aac6df3, 0x6ed387e7987873cf, 0xcad8c764f3081afc, 0x991dab61cf10947d,
  0x6016faf3664ba899, 0x41a4ddcfe193581e, 0x2f4a4b7c41d6905b, 0xf291937503ad0c97]

def badT54 : List Blk := List.map unpack [
  0xb78e23dd927aafb5, 0xeeb8c23f8cd5fa6e, 0x3a4cbaacf729ff29, 0xd431dc78ef52ff52,
  0x5f8f0b1c74246ba3, 0xb7ba92346560d3ca, 0xf96ff302ae3cab45, 0x5ff3cf80f874da23,
  0xff85aa94f8cf4dbf, 0xff2ad82c5dbb33fe, 0x4e960dcfb20514e3, 0xb1ac32bbcc2224cb,
  0x280988d33d30f050, 0x5012188f76444d05, 0xa66d028322530f7f, 0xe873808ac087b2f7,
  0xb0f08b25a14fc370, 0x4c4d9a624ab38b45, 0x7f4cbd7149aed573, 0xf7317e4713f82fc7,
  0x529038ff74d27a3b, 0x850c54ff658dd5d6, 0x94be2a3d6b409701, 0x2cfcd076d301ae02,
  0xe1b5fd5384795f6d, 0x4b6e7f872857b773, 0xf0cae4c7980ff41a, 0x4d9969ab1cb26d94,
  0x1c604dfa6affd2a8, 0x344133ddd1ff8d58, 0xc62fca4b271a8d90, 0xa9f29993e2943a0c]

def badT55 : List Blk := List.map unpack [
  0xe8b7fb236827cfaf, 0x59eedfc251e2bbfa, 0xf13a99ba85de00ff, 0x4fd41edc2abd00ff,
  0x7f5f900bbfd7876b, 0xf7b70c92feafaad3, 0xa5f929f347eb79ab, 0x6a5f52cfa3db57da,
  0x86ffabaa2b47704d, 0xa8ffdad8d2a34533, 0xbe4e040d2c51e614, 0xfcb120327007e924,
  0x90283d88836d60f0, 0xc5076188a73414d, 0x46a60a02fc5d2c0f, 0xa1e890807d3770b2,
  0xf9b0048b55d13fc3, 0x5f4c209a270ff68b, 0xfa7f88bd023addd5, 0xddf7187e80d43f2f,
  0x52bc38c44fe97a, 0x857c5429b35bd5, 0xd7942a2a3c6a4197, 0xaf2cd0d074d103ae,
  0x65e137fd3ee9145f, 0x634be67ff45b24b7, 0xdff025e4dd8215f4, 0xbf4d62693f88266d,
  0x311c984d52c257d2, 0x46341c338589a78d, 0x1bc62acadbb78a8d, 0x96a9d0999fee983a]

def badT56 : List Blk := List.map unpack [
  0x24e877fb8cc788cf, 0x6059e7df38ab18bb, 0xa7f10399457a2100, 0xea4f821e23d54200,
  0x917fed9060d4bc87, 0xef77b0c412d7caa, 0x7fa5822958ec4079, 0xf76a885215790157,
  0x528677abe7660a70, 0x85a8e7daebe19045, 0x52bec604193845e6, 0x85fca920165423e9,
  0x2990df3d78739d60, 0x520cbf7655c73e41, 0x5c46710a0df3522c, 0x35a1479032cf8570,
  0xeaf9c9044896123f, 0xd95f1b2011ac84f6, 0xbefa918868d7efdd, 0xfcdd0e1851affb3f,
  0xdd00f4bc42be35e9, 0x3f006d7c81fc665b, 0xf1d7e32abdabfd41, 0x4fafcbd07eda7f03,
  0x7a656537a261b614, 0xd56363e6c843ec24, 0x15dfe62510297615, 0x26bfe9620452e526,
  0xc431bf989f801057, 0x2946fe1cbe0804a7, 0xd21b2d2a47563a8a, 0x8d9672d0a3a5d498]

theorem badT_step0 : badRound (Spec.roundKey Blk.zero 0) badT0 = badT1 := by
  decide +kernel

theorem badT_step1 : badRound (Spec.roundKey Blk.zero 1) badT1 = badT2 := by
  decide +kernel

theorem badT_step2 : badRound (Spec.roundKey Blk.zero 2) badT2 = badT3 := by
  decide +kernel

theorem badT_step3 : badRound (Spec.roundKey Blk.zero 3) badT3 = badT4 := by
  decide +kernel

theorem badT_step4 : badRound (Spec.roundKey Blk.zero 4) badT4 = badT5 := by
  decide +kernel

theorem badT_step5 : badRound (Spec.roundKey Blk.zero 5) badT5 = badT6 := by
  decide +kernel

theorem badT_step6 : badRound (Spec.roundKey Blk.zero 6) badT6 = badT7 := by
  decide +kernel

theorem badT_step7 : badRound (Spec.roundKey Blk.zero 7) badT7 = badT8 := by
  decide +kernel

theorem badT_step8 : badRound (Spec.roundKey Blk.zero 8) badT8 = badT9 := by
  decide +kernel

theorem badT_step9 : badRound (Spec.roundKey Blk.zero 9) badT9 = badT10 := by
  decide +kernel

theorem badT_step10 : badRound (Spec.roundKey Blk.zero 10) badT10 = badT11 := by
  decide +kernel

theorem badT_step11 : badRound (Spec.roundKey Blk.zero 11) badT11 = badT12 := by
  decide +kernel

theorem badT_step12 : badRound (Spec.roundKey Blk.zero 12) badT12 = badT13 := by
  decide +kernel

theorem badT_step13 : badRound (Spec.roundKey Blk.zero 13) badT13 = badT14 := by
  decide +kernel

theorem badT_step14 : badRound (Spec.roundKey Blk.zero 14) badT14 = badT15 := by
  decide +kernel

theorem badT_step15 : badRound (Spec.roundKey Blk.zero 15) badT15 = badT16 := by
  decide +kernel

theorem badT_step16 : badRound (Spec.roundKey Blk.zero 16) badT16 = badT17 := by
  decide +kernel

theorem badT_step17 : badRound (Spec.roundKey Blk.zero 17) badT17 = badT18 := by
  decide +kernel

theorem badT_step18 : badRound (Spec.roundKey Blk.zero 18) badT18 = badT19 := by
  decide +kernel

theorem badT_step19 : badRound (Spec.roundKey Blk.zero 19) badT19 = badT20 := by
  decide +kernel

theorem badT_step20 : badRound (Spec.roundKey Blk.zero 20) badT20 = badT21 := by
  decide +kernel

theorem badT_step21 : badRound (Spec.roundKey Blk.zero 21) badT21 = badT22 := by
  decide +kernel

theorem badT_step22 : badRound (Spec.roundKey Blk.zero 22) badT22 = badT23 := by
  decide +kernel

theorem badT_step23 : badRound (Spec.roundKey Blk.zero 23) badT23 = badT24 := by
  decide +kernel

theorem badT_step24 : badRound (Spec.roundKey Blk.zero 24) badT24 = badT25 := by
  decide +kernel

theorem badT_step25 : badRound (Spec.roundKey Blk.zero 25) badT25 = badT26 := by
  decide +kernel

theorem badT_step26 : badRound (Spec.roundKey Blk.zero 26) badT26 = badT27 := by
  decide +kernel

theorem badT_step27 : badRound (Spec.roundKey Blk.zero 27) badT27 = badT28 := by
  decide +kernel

theorem badT_step28 : badRound (Spec.roundKey Blk.zero 28) badT28 = badT29 := by
  decide +kernel

theorem badT_step29 : badRound (Spec.roundKey Blk.zero 29) badT29 = badT30 := by
  decide +kernel

theorem badT_step30 : badRound (Spec.roundKey Blk.zero 30) badT30 = badT31 := by
  decide +kernel

theorem badT_step31 : badRound (Spec.roundKey Blk.zero 31) badT31 = badT32 := by
  decide +kernel

theorem badT_step32 : badRound (Spec.roundKey Blk.zero 32) badT32 = badT33 := by
  decide +kernel

theorem badT_step33 : badRound (Spec.roundKey Blk.zero 33) badT33 = badT34 := by
  decide +kernel

theorem badT_step34 : badRound (Spec.roundKey Blk.zero 34) badT34 = badT35 := by
  decide +kernel

theorem badT_step35 : badRound (Spec.roundKey Blk.zero 35) badT35 = badT36 := by
  decide +kernel

theorem badT_step36 : badRound (Spec.roundKey Blk.zero 36) badT36 = badT37 := by
  decide +kernel

theorem badT_step37 : badRound (Spec.roundKey Blk.zero 37) badT37 = badT38 := by
  decide +kernel

theorem badT_step38 : badRound (Spec.roundKey Blk.zero 38) badT38 = badT39 := by
  decide +kernel

theorem badT_step39 : badRound (Spec.roundKey Blk.zero 39) badT39 = badT40 := by
  decide +kernel

theorem badT_step40 : badRound (Spec.roundKey Blk.zero 40) badT40 = badT41 := by
  decide +kernel

theorem badT_step41 : badRound (Spec.roundKey Blk.zero 41) badT41 = badT42 := by
  decide +kernel

theorem badT_step42 : badRound (Spec.roundKey Blk.zero 42) badT42 = badT43 := by
  decide +kernel

theorem badT_step43 : badRound (Spec.roundKey Blk.zero 43) badT43 = badT44 := by
  decide +kernel

theorem badT_step44 : badRound (Spec.roundKey Blk.zero 44) badT44 = badT45 := by
  decide +kernel

theorem badT_step45 : badRound (Spec.roundKey Blk.zero 45) badT45 = badT46 := by
  decide +kernel

theorem badT_step46 : badRound (Spec.roundKey Blk.zero 46) badT46 = badT47 := by
  decide +kernel

theorem badT_step47 : badRound (Spec.roundKey Blk.zero 47) badT47 = badT48 := by
  decide +kernel

theorem badT_step48 : badRound (Spec.roundKey Blk.zero 48) badT48 = badT49 := by
  decide +kernel

theorem badT_step49 : badRound (Spec.roundKey Blk.zero 49) badT49 = badT50 := by
  decide +kernel

theorem badT_step50 : badRound (Spec.roundKey Blk.zero 50) badT50 = badT51 := by
  decide +kernel

theorem badT_step51 : badRound (Spec.roundKey Blk.zero 51) badT51 = badT52 := by
  decide +kernel

theorem badT_step52 : badRound (Spec.roundKey Blk.zero 52) badT52 = badT53 := by
  decide +kernel

theorem badT_step53 : badRound (Spec.roundKey Blk.zero 53) badT53 = badT54 := by
  decide +kernel

theorem badT_step54 : badRound (Spec.roundKey Blk.zero 54) badT54 = badT55 := by
  decide +kernel

theorem badT_step55 : badRound (Spec.roundKey Blk.zero 55) badT55 = badT56 := by
  decide +kernel

theorem badT_0 : List.replicate 32 Blk.zero = badT0 := by decide +kernel

theorem badLanes_0 : badLanes Blk.zero (List.replicate 32 Blk.zero) 0 = badT0 := badT_0

theorem badLanes_1 : badLanes Blk.zero (List.replicate 32 Blk.zero) 1 = badT1 :=
  Eq.trans (congrArg (badRound (Spec.roundKey Blk.zero 0)) badLanes_0) badT_step0

theorem badLanes_2 : badLanes Blk.zero (List.replicate 32 Blk.zero) 2 = badT2 :=
  Eq.trans (congrArg (badRound (Spec.roundKey Blk.zero 1)) badLanes_1) badT_step1

theorem badLanes_3 : badLanes Blk.zero (List.replicate 32 Blk.zero) 3 = badT3 :=
  Eq.trans (congrArg (badRound (Spec.roundKey Blk.zero 2)) badLanes_2) badT_step2

theorem badLanes_4 : badLanes Blk.zero (List.replicate 32 Blk.zero) 4 = badT4 :=
  Eq.trans (congrArg (badRound (Spec.roundKey Blk.zero 3)) badLanes_3) badT_step3

theorem badLanes_5 : badLanes Blk.zero (List.replicate 32 Blk.zero) 5 = badT5 :=
  Eq.trans (congrArg (badRound (Spec.roundKey Blk.zero 4)) badLanes_4) badT_step4

theorem badLanes_6 : badLanes Blk.zero (List.replicate 32 Blk.zero) 6 = badT6 :=
  Eq.trans (congrArg (badRound (Spec.roundKey Blk.zero 5)) badLanes_5) badT_step5

theorem badLanes_7 : badLanes Blk.zero (List.replicate 32 Blk.zero) 7 = badT7 :=
  Eq.trans (congrArg (badRound (Spec.roundKey Blk.zero 6)) badLanes_6) badT_step6

theorem badLanes_8 : badLanes Blk.zero (List.replicate 32 Blk.zero) 8 = badT8 :=
  Eq.trans (congrArg (badRound (Spec.roundKey Blk.zero 7)) badLanes_7) badT_step7

theorem badLanes_9 : badLanes Blk.zero (List.replicate 32 Blk.zero) 9 = badT9 :=
  Eq.trans (congrArg (badRound (Spec.roundKey Blk.zero 8)) badLanes_8) badT_step8

theorem badLanes_10 : badLanes Blk.zero (List.replicate 32 Blk.zero) 10 = badT10 :=
  Eq.trans (congrArg (badRound (Spec.roundKey Blk.zero 9)) badLanes_9) badT_step9

theorem badLanes_11 : badLanes Blk.zero (List.replicate 32 Blk.zero) 11 = badT11 :=
  Eq.trans (congrArg (badRound (Spec.roundKey Blk.zero 10)) badLanes_10) badT_step10

theorem badLanes_12 : badLanes Blk.zero (List.replicate 32 Blk.zero) 12 = badT12 :=
  Eq.trans (congrArg (badRound (Spec.roundKey Blk.zero 11)) badLanes_11) badT_step11

theorem badLanes_13 : badLanes Blk.zero (List.replicate 32 Blk.zero) 13 = badT13 :=
  Eq.trans (congrArg (badRound (Spec.roundKey Blk.zero 12)) badLanes_12) badT_step12

theorem badLanes_14 : badLanes Blk.zero (List.replicate 32 Blk.zero) 14 = badT14 :=
  Eq.trans (congrArg (badRound (Spec.roundKey Blk.zero 13)) badLanes_13) badT_step13

theorem badLanes_15 : badLanes Blk.zero (List.replicate 32 Blk.zero) 15 = badT15 :=
  Eq.trans (congrArg (badRound (Spec.roundKey Blk.zero 14)) badLanes_14) badT_step14

theorem badLanes_16 : badLanes Blk.zero (List.replicate 32 Blk.zero) 16 = badT16 :=
  Eq.trans (congrArg (badRound (Spec.roundKey Blk.zero 15)) badLanes_15) badT_step15

theorem badLanes_17 : badLanes Blk.zero (List.replicate 32 Blk.zero) 17 = badT17 :=
  Eq.trans (congrArg (badRound (Spec.roundKey Blk.zero 16)) badLanes_16) badT_step16

theorem badLanes_18 : badLanes Blk.zero (List.replicate 32 Blk.zero) 18 = badT18 :=
  Eq.trans (congrArg (badRound (Spec.roundKey Blk.zero 17)) badLanes_17) badT_step17

theorem badLanes_19 : badLanes Blk.zero (List.replicate 32 Blk.zero) 19 = badT19 :=
  Eq.trans (congrArg (badRound (Spec.roundKey Blk.zero 18)) badLanes_18) badT_step18

theorem badLanes_20 : badLanes Blk.zero (List.replicate 32 Blk.zero) 20 = badT20 :=
  Eq.trans (congrArg (badRound (Spec.roundKey Blk.zero 19)) badLanes_19) badT_step19

theorem badLanes_21 : badLanes Blk.zero (List.replicate 32 Blk.zero) 21 = badT21 :=
  Eq.trans (congrArg (badRound (Spec.roundKey Blk.zero 20)) badLanes_20) badT_step20

theorem badLanes_22 : badLanes Blk.zero (List.replicate 32 Blk.zero) 22 = badT22 :=
  Eq.trans (congrArg (badRound (Spec.roundKey Blk.zero 21)) badLanes_21) badT_step21

theorem badLanes_23 : badLanes Blk.zero (List.replicate 32 Blk.zero) 23 = badT23 :=
  Eq.trans (congrArg (badRound (Spec.roundKey Blk.zero 22)) badLanes_22) badT_step22

theorem badLanes_24 : badLanes Blk.zero (List.replicate 32 Blk.zero) 24 = badT24 :=
  Eq.trans (congrArg (badRound (Spec.roundKey Blk.zero 23)) badLanes_23) badT_step23

theorem badLanes_25 : badLanes Blk.zero (List.replicate 32 Blk.zero) 25 = badT25 :=
  Eq.trans (congrArg (badRound (Spec.roundKey Blk.zero 24)) badLanes_24) badT_step24

theorem badLanes_26 : badLanes Blk.zero (List.replicate 32 Blk.zero) 26 = badT26 :=
  Eq.trans (congrArg (badRound (Spec.roundKey Blk.zero 25)) badLanes_25) badT_step25

theorem badLanes_27 : badLanes Blk.zero (List.replicate 32 Blk.zero) 27 = badT27 :=
  Eq.trans (congrArg (badRound (Spec.roundKey Blk.zero 26)) badLanes_26) badT_step26

theorem badLanes_28 : badLanes Blk.zero (List.replicate 32 Blk.zero) 28 = badT28 :=
  Eq.trans (congrArg (badRound (Spec.roundKey Blk.zero 27)) badLanes_27) badT_step27

theorem badLanes_29 : badLanes Blk.zero (List.replicate 32 Blk.zero) 29 = badT29 :=
  Eq.trans (congrArg (badRound (Spec.roundKey Blk.zero 28)) badLanes_28) badT_step28

theorem badLanes_30 : badLanes Blk.zero (List.replicate 32 Blk.zero) 30 = badT30 :=
  Eq.trans (congrArg (badRound (Spec.roundKey Blk.zero 29)) badLanes_29) badT_step29

theorem badLanes_31 : badLanes Blk.zero (List.replicate 32 Blk.zero) 31 = badT31 :=
  Eq.trans (congrArg (badRound (Spec.roundKey Blk.zero 30)) badLanes_30) badT_step30

theorem badLanes_32 : badLanes Blk.zero (List.replicate 32 Blk.zero) 32 = badT32 :=
  Eq.trans (congrArg (badRound (Spec.roundKey Blk.zero 31)) badLanes_31) badT_step31

theorem badLanes_33 : badLanes Blk.zero (List.replicate 32 Blk.zero) 33 = badT33 :=
  Eq.trans (congrArg (badRound (Spec.roundKey Blk.zero 32)) badLanes_32) badT_step32

theorem badLanes_34 : badLanes Blk.zero (List.replicate 32 Blk.zero) 34 = badT34 :=
  Eq.trans (congrArg (badRound (Spec.roundKey Blk.zero 33)) badLanes_33) badT_step33

theorem badLanes_35 : badLanes Blk.zero (List.replicate 32 Blk.zero) 35 = badT35 :=
  Eq.trans (congrArg (badRound (Spec.roundKey Blk.zero 34)) badLanes_34) badT_step34

theorem badLanes_36 : badLanes Blk.zero (List.replicate 32 Blk.zero) 36 = badT36 :=
  Eq.trans (congrArg (badRound (Spec.roundKey Blk.zero 35)) badLanes_35) badT_step35

theorem badLanes_37 : badLanes Blk.zero (List.replicate 32 Blk.zero) 37 = badT37 :=
  Eq.trans (congrArg (badRound (Spec.roundKey Blk.zero 36)) badLanes_36) badT_step36

theorem badLanes_38 : badLanes Blk.zero (List.replicate 32 Blk.zero) 38 = badT38 :=
  Eq.trans (congrArg (badRound (Spec.roundKey Blk.zero 37)) badLanes_37) badT_step37

theorem badLanes_39 : badLanes Blk.zero (List.replicate 32 Blk.zero) 39 = badT39 :=
  Eq.trans (congrArg (badRound (Spec.roundKey Blk.zero 38)) badLanes_38) badT_step38

theorem badLanes_40 : badLanes Blk.zero (List.replicate 32 Blk.zero) 40 = badT40 :=
  Eq.trans (congrArg (badRound (Spec.roundKey Blk.zero 39)) badLanes_39) badT_step39

theorem badLanes_41 : badLanes Blk.zero (List.replicate 32 Blk.zero) 41 = badT41 :=
  Eq.trans (congrArg (badRound (Spec.roundKey Blk.zero 40)) badLanes_40) badT_step40

theorem badLanes_42 : badLanes Blk.zero (List.replicate 32 Blk.zero) 42 = badT42 :=
  Eq.trans (congrArg (badRound (Spec.roundKey Blk.zero 41)) badLanes_41) badT_step41

theorem badLanes_43 : badLanes Blk.zero (List.replicate 32 Blk.zero) 43 = badT43 :=
  Eq.trans (congrArg (badRound (Spec.roundKey Blk.zero 42)) badLanes_42) badT_step42

theorem badLanes_44 : badLanes Blk.zero (List.replicate 32 Blk.zero) 44 = badT44 :=
  Eq.trans (congrArg (badRound (Spec.roundKey Blk.zero 43)) badLanes_43) badT_step43

theorem badLanes_45 : badLanes Blk.zero (List.replicate 32 Blk.zero) 45 = badT45 :=
  Eq.trans (congrArg (badRound (Spec.roundKey Blk.zero 44)) badLanes_44) badT_step44

theorem badLanes_46 : badLanes Blk.zero (List.replicate 32 Blk.zero) 46 = badT46 :=
  Eq.trans (congrArg (badRound (Spec.roundKey Blk.zero 45)) badLanes_45) badT_step45

theorem badLanes_47 : badLanes Blk.zero (List.replicate 32 Blk.zero) 47 = badT47 :=
  Eq.trans (congrArg (badRound (Spec.roundKey Blk.zero 46)) badLanes_46) badT_step46

theorem badLanes_48 : badLanes Blk.zero (List.replicate 32 Blk.zero) 48 = badT48 :=
  Eq.trans (congrArg (badRound (Spec.roundKey Blk.zero 47)) badLanes_47) badT_step47

theorem badLanes_49 : badLanes Blk.zero (List.replicate 32 Blk.zero) 49 = badT49 :=
  Eq.trans (congrArg (badRound (Spec.roundKey Blk.zero 48)) badLanes_48) badT_step48

theorem badLanes_50 : badLanes Blk.zero (List.replicate 32 Blk.zero) 50 = badT50 :=
  Eq.trans (congrArg (badRound (Spec.roundKey Blk.zero 49)) badLanes_49) badT_step49

theorem badLanes_51 : badLanes Blk.zero (List.replicate 32 Blk.zero) 51 = badT51 :=
  Eq.trans (congrArg (badRound (Spec.roundKey Blk.zero 50)) badLanes_50) badT_step50

theorem badLanes_52 : badLanes Blk.zero (List.replicate 32 Blk.zero) 52 = badT52 :=
  Eq.trans (congrArg (badRound (Spec.roundKey Blk.zero 51)) badLanes_51) badT_step51

theorem badLanes_53 : badLanes Blk.zero (List.replicate 32 Blk.zero) 53 = badT53 :=
  Eq.trans (congrArg (badRound (Spec.roundKey Blk.zero 52)) badLanes_52) badT_step52

theorem badLanes_54 : badLanes Blk.zero (List.replicate 32 Blk.zero) 54 = badT54 :=
  Eq.trans (congrArg (badRound (Spec.roundKey Blk.zero 53)) badLanes_53) badT_step53

theorem badLanes_55 : badLanes Blk.zero (List.replicate 32 Blk.zero) 55 = badT55 :=
  Eq.trans (congrArg (badRound (Spec.roundKey Blk.zero 54)) badLanes_54) badT_step54

theorem badLanes_56 : badLanes Blk.zero (List.replicate 32 Blk.zero) 56 = badT56 :=
  Eq.trans (congrArg (badRound (Spec.roundKey Blk.zero 55)) badLanes_55) badT_step55

theorem badT56_0 : (badT56.getD 0 Blk.zero).b0 = 207#8 := by decide +kernel

theorem bad_lane0 :
    ((badLanes Blk.zero (List.replicate 32 Blk.zero) 56).getD 0 Blk.zero).b0 = 207#8 := by
  rw [badLanes_56, badT56_0]

end Dvbcsa.Proof
