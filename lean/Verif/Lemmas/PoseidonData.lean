/-!
# Certificates for the Poseidon matrices

Inverses of the linear layers, Cauchy points of the Goldilocks matrix and a vector showing that the BabyBear
matrix is not maximally diffusing. Generated by a script; checked in `Lemmas/PoseidonCheck.lean`.
-/

namespace Verif.Poseidon

/-- Inverse of `mds64` modulo the goldilocks prime. -/
def inv_goldilocks : List (List Nat) :=
  [[0x2667f9aff79bbbe7, 0x417444898c16cc61, 0x72774354b9281ed0, 0x9b90ff162a5e7e8c,
    0x56ee9b446f6a406f, 0xa5dbb6ce4fa54575, 0xba7bea3d9fe87d57, 0x8ab14b02e0315fbd,
    0x2353a300801da662, 0xc84223d3e3a2c910, 0x541300d603351586, 0x708cb816034e7aae,
    0x5140f88aec81b6e3, 0x80235aaf313adf6f, 0xc05ce544dd5fed9b, 0xeb66e3b9ecf7da5c,
    0xe5dc2e4e7d13a814, 0x1f11c73c5c503d37, 0xece7fcbed0b3cc9a, 0x413610bebd11c3e1,
    0xce4807ec547d7b2c, 0x9d24a9546ecc96ba, 0x24ee9a9ab16526f9, 0x6e965788b61c18bc],
   [0x25095f533133658d, 0x2ff69fdea6fd4aaa, 0x43f5801ff40a29c9, 0x933d1b9f65e69507,
    0xe80cc4347c394b77, 0x61efdc3a35b797ab, 0x05332f7ae67d8cff, 0x8ea39deef6e16104,
    0x12464d2630f8a4bf, 0x201a70ae6af37678, 0x0bcd41268c2db2eb, 0xd9910cfb37c4c950,
    0x14f57b9e66f62515, 0xd9d77eac3cd74334, 0x6fe7280ee78bad09, 0x28580fd3f9e19262,
    0x02bf8c517013cae0, 0xd39bfe818c4d7a69, 0xb4a94ff980bd96a9, 0xc53de1028b1bf881,
    0xe6d8949e0b68c14e, 0xad082842453b3334, 0xb8c8a7250bd3ebad, 0x4b6ff1074b0adf4d],
   [0x68df573921ed3c4e, 0xe00489594b5893aa, 0x1942a065aa63ddef, 0x04060e9365eda7a8,
    0x07d9cbefa4a479be, 0x631f46b4d0cc750c, 0xe0d91e8085e88fe3, 0x2969c115bde6eab8,
    0xd65fa5b4f2126ccc, 0x09e38fecd38d4612, 0x95577884b0527945, 0xb7b01e5870c2a7f6,
    0xad06004e059942c0, 0x906b1201abbd9713, 0xdca8503ebbcbbcd3, 0xd522db21c8637637,
    0x74f62a9c3046010d, 0x9dfb2ac80c3b3664, 0x24da04d20cf6fde5, 0xc44d24822c3762af,
    0x21aa7b416250c968, 0xcc2fe2d3bf2df99c, 0x55fd2825a730ddce, 0xe8200516a2c7ff71],
   [0x92400d3dc5a3405d, 0xdfbbb4f6fa6b0b58, 0x3f510428ed6e8f70, 0x07e43cd0f9300867,
    0x6ff3e765305078a6, 0xd6c267cb794e9b91, 0x155e879e79445705, 0x1880534c4f970baa,
    0xda576b7750fc5368, 0x7e7e74142420d70a, 0x03d6f98d5e324d6e, 0x66c88dd2a892d239,
    0x7de0bcecac1b3ce1, 0x2adc71e268612c63, 0x16f66c5c008568b5, 0x48f9ee455d77e203,
    0x89a8a7d4f1ffb9e0, 0x50044c9590714df9, 0x974f269a8ab9e171, 0x95b9b00c2b2da46f,
    0x166f4ae0cca08ce5, 0x2997a8712e81d59e, 0x971e4a33f9a2ed94, 0x7e8edd7f6073fee2],
   [0xa96662d030ae2fdd, 0x3bac0c9bb0e7fb66, 0x677d042686ad519c, 0xace55c625aa824ce,
    0x4a334fbbcdac0c40, 0x02daaecd375dc24a, 0x33cc360380f30814, 0xf0b8da7cc9afde51,
    0x1ad5544b73cb61fc, 0x6ae73b2eadaccead, 0x0b45c5bdc9b28b19, 0xea208cd5bd2a218a,
    0xc6452c4414f635c0, 0xfc83ff8a87fe47d5, 0x07b35a7559476ada, 0x2d5c91408ab8a21e,
    0xb4a73f23d36c3f97, 0xfa5ce0d095f09a67, 0xd668bd8eb8cbe881, 0xca4ec23080f757c9,
    0x9ace1107f7dd9d69, 0xf43a6e56f810cc29, 0xdb638d65ebf56fe1, 0x1a30074bb596fdf3],
   [0x7e8eed6e01170dea, 0xf2814bf23ae4cc12, 0xe27df3315a9c9411, 0xff8b3ac797bae945,
    0x35ce9e180f2d3634, 0x7af0202f03e0abd0, 0xf8fa737a1153b4c6, 0xa684ad45c669c75b,
    0x318af36121ea6698, 0xd04cf55216836718, 0xc599d6aa202046c6, 0xb959ae4ca4790556,
    0xb6b4bb98b643e8f8, 0x51c89bff51c3a6f7, 0xf9334c1755e7a807, 0xf003b2bad9605b23,
    0xfe183cea0d5a3b9b, 0xfb3eb9c7b09320ee, 0x1f1fa28b773cf16c, 0x3d443b7df54b871f,
    0xd72a12b5da29da07, 0xcf4a9e03d14a53f3, 0x48a5f736f686d595, 0x28b0aaae968a639f],
   [0x5aa155270c91737d, 0xf372f2db70b3b4a5, 0xec260e2ecfbdc9bb, 0xca8a1616805ab0e9,
    0x87fc2e5892528e84, 0x3f69a3ab67e5d5de, 0x45fb5729deab27d4, 0x357bb4421178af28,
    0x604ec9bfe4125c91, 0x0da6baa156fe0ac0, 0xaa7450f2e8d0c431, 0x5d01ee23a9366921,
    0x497aa021f1e8f0cb, 0x621342cb7ac6592e, 0xdc011907afdb6d0f, 0x4ef41236cd10fb2f,
    0xfab3a8a3299d2e23, 0x1da7cb5e39b301e2, 0xb1280894d53f54fa, 0x3a15c154a27578b4,
    0x83a23b98053a5739, 0x26472f15b5e8e2eb, 0x9a27a2231299803b, 0xef25ab55fbe4cb2a],
   [0xbb846255726fe37f, 0xd8ce92d01753cc13, 0xe454db9c83ded92f, 0xb485ab8f3a9ec583,
    0x4259be945a01e7eb, 0x3119200b03ab5f5b, 0xe3c44d9287843224, 0x33d7b857edd63eb5,
    0x8e2517bca70487ce, 0xf60f7d750cd17072, 0xd9e9a55bdb81354e, 0x4bd5d403a86f4214,
    0x28c90e11de3a6350, 0xb7bc4c81c72d3ef0, 0x8dcb7e430f416244, 0xe297cfa12fe19967,
    0xbb0881d16a7a83b6, 0x3530a1a420adf53b, 0xcf604dc5fb8e01c8, 0x7bccf18c23f9f987,
    0xd220fc2e947b5cf1, 0xbb1990fd4c503266, 0x853fa0c1b215d264, 0x7817f9b46410892e],
   [0x98d7d8646816c31c, 0xe9cadde961f19068, 0xe6baad5eafc26308, 0xffc5f7c9584679a9,
    0xab6063b9fd63b585, 0x76bc322a002f79c7, 0x2e149af2cac88e71, 0x773f9acb735d7caa,
    0xf86a519acca5964c, 0x347901d8671ba1f1, 0xcd14bbfa3485b01d, 0x04935d7c07b9d6eb,
    0x18c3d4c9b9200867, 0xd337520bce76f437, 0x3bb8e56b117c6386, 0xd0b2976dccb97d63,
    0xeeb032ac58be016c, 0xabdd24785c7330c4, 0x50d84bef8194d15b, 0x39146d6b9d38b717,
    0xfd94fe48e93d2910, 0x3142f8bc0cf403b2, 0x224fbaaade83bf8e, 0x4887f513bd7129e1],
   [0x5ebbb4934418d96a, 0x66289834e3ef39c1, 0x2a452188bef401bd, 0x3ee7cd506fa1a440,
    0xe7fa0ef41533aeef, 0x266784618c26e6cc, 0x6009c6a0140161e5, 0xd9047a11bafd2d3f,
    0x46039014738e2a47, 0x12afa44bd1544cc5, 0x65c5e12d9eab45f5, 0x851e3e7fcf9123a7,
    0x9d33534d498460f6, 0x043483f861a8546c, 0x40415e16ea2ca798, 0x12bfe2054d6b967a,
    0x2b7d5ea55558de93, 0x48e3a1a1dc1de107, 0x3409e115bb2670f2, 0x35aed66cd241f29b,
    0xe2d6a7112d56883b, 0xf9532ea67d524186, 0x441fce34f2c79ee4, 0xe7eb26dff0fe1591],
   [0x75b0fc811df88e2d, 0xda95938c7ee5c4a6, 0x575ac72183805fe6, 0x4c3750e40085e29b,
    0x7f6178fb2a2d6f59, 0x0b59a250f7c78c79, 0x4672f2d9529c25c7, 0x29320a2451a3dcf2,
    0xd8608d27fab0127f, 0x6fcc46dcdbf33fb7, 0x7d77dc19ce32d3c2, 0x69002f1c547c3bc2,
    0x723ed8b2276ebf1b, 0x2b0632ee4341b0e0, 0x122061d02ff1eb76, 0xc950abccc9d49605,
    0x29814eb59331bf05, 0x20b8341f33c529aa, 0xb994fc9ee1810cf4, 0xdf2667da3cb6fa6c,
    0x84c3892a604f91ae, 0x80a7c51e14a3f29f, 0xe9ce34d6f1e14f80, 0xb4151f1f32fc6858],
   [0xfb89b98a5ad491fb, 0x052df61690a2f61c, 0x45279464a8134cbe, 0x51279b593c84cf39,
    0xed2ae80ab7b2dd29, 0x45a717957b9c4dc9, 0xe5bcc650c1416374, 0x7d73b287d96e9392,
    0xd6fd3822f6115acd, 0xf191480c91794906, 0xae37ddf75cf61d8b, 0xd90d7c170c5f2d5e,
    0xaf9b10d2657174e2, 0x15eb1585def18972, 0xa4c4c5f187fb3f8b, 0xd33b117d38082fb5,
    0xce779db40ccd836b, 0xc5491232e3044e89, 0x6993a9f533fd3cc0, 0x3d6294a45ba19f85,
    0xa15deef9412394c8, 0x2218b138f2844baf, 0xde5ec46b66f5b425, 0xabf983e5bdfc2197],
   [0xa9d2097f8d624d02, 0x0fb1d7c919e661c6, 0x1c2003d96b82dc06, 0xf2101f5afab38407,
    0x4e3b1e5189eb474b, 0x43f21cfafdd894a9, 0x3ed0c801ba3b4481, 0x6466444f9acc8222,
    0xc78c5028308f53c5, 0xda4fbfdc7d7a0194, 0x1ff8c18245ac4bd6, 0xb89daa84a906f30e,
    0x385edff13b65f079, 0x9ac6214e9a9feb66, 0x76955808988a803f, 0x911bb6ce55336423,
    0xa143bda1dcd04209, 0x005ee86e9bb82d4c, 0xe58c60a25bc8ee0b, 0x67c7cbdf6024955f,
    0x8046122ffe92e133, 0xa1d3e8e5b6aed39d, 0xe71b5c5d903c5f3a, 0xec13db7b876a7a83],
   [0x16248468a13b1ccd, 0x144b639f0495bfd9, 0x3bc21e13e8e27fcf, 0x95957f150fd083a7,
    0xf366cbff0e09d0ed, 0xbfb298cc1ea919b4, 0x9c9a9d08988eca5b, 0x25ff8fd3fe5848fc,
    0xf9675484f7315afb, 0xe96993f118e3d4e1, 0xbda2a62f79dfe04c, 0x67a8ed6a2f34adbf,
    0xa23d9c0ce2c527c6, 0xd410a56dcec9c93d, 0xa0ff760a692abbc3, 0x14ce09a66860e12c,
    0x234d40b050d02896, 0x85bd73c75a022c2a, 0x37edb94439f40ea8, 0x96905b6347d2a564,
    0xbef6e6d559389ea2, 0xa2f91ee92c453d33, 0x0684e8de08cd0e0c, 0x1355ca9f723fb288],
   [0x801a8c7ed4cf4ea5, 0xba808a7b36dd78ed, 0x615d6dc1a08d70d7, 0x57bab4a3fcb8a516,
    0x5b2acc9c0efc1fb8, 0x40d0b1acfac76476, 0xcda16135e82c17a1, 0x8a7d335e1ef0e3c1,
    0x1f80d6b2bc775de6, 0xd04115d2c0cf90aa, 0x34aa3d974a966bc1, 0xc424682f4e8f7df1,
    0x88272e3b4ae9d59b, 0x9ad72b3e97a2b4d4, 0xb261440c395f5bae, 0xc0c4514106f29f4b,
    0x7e85618282afe984, 0x4ae9aec4ca9d0c58, 0x1d3b132e0ea62ca8, 0x5c26ac723229ec10,
    0x1f6a6df30217262e, 0xed21c32a5bd212c6, 0xb107b4e68822cbbf, 0x7fc4a5f2cdc278c5],
   [0x7592af514661d3d4, 0x12b33b557fc8925f, 0x9ebd0ebe32fca278, 0xac0ed76b84f9d4b4,
    0xe5b52d6e5661e39a, 0x663696434ccd48cf, 0xd563ed2e2c43a75d, 0x3bd4962b809060b6,
    0x80d496096e640208, 0x7b2aaa83bff0fb33, 0x51bc60ca6a7e1bd2, 0xc35a633c783f6304,
    0x2f128d2eadfac799, 0x33cc96027564a960, 0x94926cafe7775e3b, 0xc1f02ee09fdd2422,
    0x8b522e3aa5e592c2, 0xcf6f99f8b6e38de3, 0xbb1d52e5b24e162f, 0xa610f206fe7c2f65,
    0x1c173347c9d972cb, 0x496adcb02952cff7, 0x9c65557bbd189714, 0xa1b7de2e18af9025],
   [0x9bfe9b325a6d1813, 0x9e07f61a6cad5947, 0xb138a39522b9c1eb, 0x1927a533af923eb5,
    0x28436dfc5516bf4f, 0x9c970e180b7b41d9, 0x7d2f52e9cbeba703, 0x800d0f9355f8d19b,
    0x0f102badc333c5ea, 0x74fe7466b4b5163d, 0x849525b1e0b3c219, 0x10040312d96c6778,
    0x9deea1f986c3f7ae, 0x4a0c173b79230419, 0x435653cbde1db033, 0xf3c312695a2a8678,
    0x7cf4c631951f82e8, 0xa77292c8b3fb9bdb, 0xdd580dd884e7c397, 0xd4dc89c8d7de2c0c,
    0x44745eb283ef2908, 0x3563ff00477d65ff, 0xd67d0ea7d46c4a2f, 0xf2de25179cf1dab1],
   [0xa868fac5eec1593b, 0x6c538f288848492a, 0x6372b99161163aff, 0xb0aca67ed7355c44,
    0x410b9df8c6c0c82a, 0xce00883fd5985719, 0xdb9ed188516e22af, 0x3ad7c5f85d7d2112,
    0x601e5ee5b43a4866, 0xc0579b64afe8d80a, 0xcdbeff71ec656d1c, 0x324b171278000fad,
    0x81e35179e8d8b0bc, 0x11ed8dadc798bcdc, 0x21be266ec11beb0e, 0x083f30451f26e022,
    0xac9a1628a4a298a8, 0x5a8bc9d083325855, 0x0d31c9ec046414a5, 0xfc523aa3ed81f67c,
    0x0d2e4d454e44fdb8, 0x2a007d57bbe59074, 0x800fbe042e427822, 0x566f049681e9ab17],
   [0x122e32f6e715a5a7, 0xdd92c02ac02c0fc6, 0xb1a59c378005b927, 0x1d074cb04db18c9e,
    0xcfd1e4008564d61e, 0x1e0e6a78a5b62028, 0x74532554087e1c9a, 0x169ef0a9c4debd2c,
    0x1543eeff138df1fc, 0x77e72d154611e430, 0x5b0b9e3d2a8838ab, 0x02b937cc8c697206,
    0x33f1cf29937c1f68, 0x83b945b4a3790c24, 0xe2e4372fa85af3d6, 0xde83a81147c87e70,
    0x94609f476eb72ad0, 0x3e548f587c82dd16, 0xdc1d5bee4def1988, 0xa2bc7eed3f07c78c,
    0x8ecb15c050a19001, 0x2154a55cc09c550b, 0x3e601bc8370f71b7, 0xdc882bc8a3f9c727],
   [0x84fe2deb051018fe, 0x6326c325ac08d443, 0x60fe1263401c03ac, 0x536893e56b8a3228,
    0x825f0cd47b0d51bf, 0xd66b902246ee853c, 0xfdee122d042d7245, 0x74da60eeccefbc74,
    0x960bbf8d127a79a1, 0xc231222394ed169f, 0x3baa5f22871c13ac, 0x3b7ac8fab9a2b3a3,
    0x65de6a841e58bf38, 0x7219f865a63a1807, 0x8da663e248bb9f16, 0xc777511118bd18a8,
    0x2127064d33e64b1c, 0x8f23630789362b89, 0xd1462ac6e3f8d6a5, 0x41c8399ac22f65fb,
    0xd67e84fa7be57722, 0xe1888429f344d101, 0xe1f1df226c264a45, 0x379d4e21cdfdf4fe],
   [0x16c913acf42a1f27, 0xf65f5fbb180b948a, 0x5a8412f1dc90cd68, 0x7cdff7afad9879f0,
    0x5f13d75f7b91600f, 0x60f84a77b3c538f2, 0xffe1838839e91bff, 0x20fd542551f064eb,
    0x74ef7bb5e827c721, 0x713ed052c013c338, 0xcc9a169abe43b3da, 0x39dc6483743f0154,
    0x00af7220fa219f01, 0xb9d6927acbeed7c8, 0xed858f1bee02bbc0, 0xfe7ad0721b51357b,
    0x2baadc85e5c87dd5, 0xf778b2ecbbd9b9e6, 0x229bffb05c9b69c5, 0x63f29d6d6c6ea1e2,
    0xfa847366ebf02e13, 0xead46f2d1ee5818e, 0x36495aa9f521a60c, 0x39512445287501a1],
   [0xfd43f159a22c8932, 0x4c3754c5ff053610, 0xe8ca23daa1bbc35b, 0x98314bfe9244b3d7,
    0xbeba01f74e80c860, 0xe19d983315bea789, 0x6f6ab343122dc60d, 0xc70d8f1f074653ae,
    0xaf173f13eec915ec, 0x5312cc5cc2f7523d, 0xf1c64c4275b70ac3, 0x41bb38d18cbcda4c,
    0x0fecd884d7816d31, 0x0d2b9533bd943887, 0x85c8e941bd927061, 0x34f65bfdbf10e288,
    0x7e271cad320767e3, 0xde1a42f2174a0225, 0x84c9ce664a0f7e17, 0x02c37c1f13c3d56a,
    0xde0304e69720e3b8, 0xe3629526233c0e13, 0xb8982c3251d907e0, 0xdef3d73e8ce22f30],
   [0x0282214cf80a0c0b, 0x0136da8663bad543, 0xaab324e29a3601bc, 0xa7feb7ebff985ec1,
    0xf352996bbb3443b0, 0x938fc0d26a3d81c4, 0xdb5d960aee9ecac1, 0x9449693063c48830,
    0x41b11a2bdc2a1143, 0x4ebe428a9cce7d7f, 0xf6e578cb260eb019, 0xc18d459f7d9ccd40,
    0xffcf18b4c8e4c6c7, 0x4c8392219eb6d14b, 0xdcc394025ce1b00b, 0x6869af4dd601a313,
    0xd25653175b5e56b6, 0xca7da11a80291f2a, 0x0655e1a5e3812b1c, 0xa57810f09678f055,
    0x46fdaa5aadda35c5, 0x889751b422d6007b, 0xe2dfc2ea0ad9e260, 0x6af44b95c6b9298e],
   [0x1e32267791f5e10b, 0x0d283c6840438a73, 0x19ca43118d69df00, 0x662a3769d6f7149f,
    0x7c9510619c1996c1, 0x7d107e729aa84ecb, 0x7dc6cef0307238ae, 0x037765b44a586d81,
    0xeea7df243b03a072, 0xd2baa06322d0dfb6, 0x571e474bf0807466, 0x13b5824c13b5b474,
    0xac9671172017ff53, 0x0c65b29a8659bd2d, 0x276f2d56fe3725e4, 0x34ade2be06289e3c,
    0x677ff9c897166f63, 0xff87cd46b7f20541, 0xe4d4a32c7ee15fc0, 0xc61eef30801c5c28,
    0x701f0860a98735b2, 0xb248ea4d40e57e7a, 0x9301cbcbf0fe25ac, 0x3caf97ffbe3bef42]]

/-- Inverse of `mds64` modulo the babybear prime. -/
def inv_babybear : List (List Nat) :=
  [[0x000000004369696a, 0x0000000014a58c81, 0x000000006cdf0b8a, 0x000000006f9962c8,
    0x00000000320f8c16, 0x0000000015ce0f4a, 0x0000000063bad31a, 0x0000000076b02527,
    0x0000000076bd7c05, 0x0000000039decc3c, 0x000000006d2d93d4, 0x000000006b4b1ba4,
    0x00000000333e0a99, 0x00000000342332ff, 0x0000000063c84a18, 0x000000000f2c6806,
    0x000000004b52f865, 0x000000004245d6dd, 0x0000000057cd9b24, 0x00000000627fcda9,
    0x0000000054fe2750, 0x00000000371ec960, 0x000000001c913da0, 0x000000004deeebc5],
   [0x000000002bcf40a9, 0x000000004c8020a3, 0x0000000077a30323, 0x000000003f63f2a2,
    0x000000004858af7e, 0x000000001476c2df, 0x0000000059ab31e2, 0x000000004a6f5e40,
    0x000000005344b3f0, 0x000000005ee96c59, 0x0000000033bae9c8, 0x0000000012b7dc2b,
    0x000000003014d8e4, 0x00000000139acfa0, 0x0000000032d5cac7, 0x0000000021a6bc51,
    0x0000000016063c56, 0x000000005c309694, 0x000000005b11d2ed, 0x0000000063942e15,
    0x000000004391a992, 0x0000000012a1465e, 0x0000000042b34bb2, 0x00000000273e8b8e],
   [0x000000001e28177d, 0x0000000053be8bd7, 0x0000000029332237, 0x000000004519e848,
    0x00000000128dbf9b, 0x000000005c22c862, 0x0000000052ceadc1, 0x000000005e6c0833,
    0x000000001d9646c0, 0x000000002e59fe81, 0x0000000007dbeb2c, 0x0000000004fc6fa8,
    0x00000000254521f9, 0x000000004c8e0780, 0x0000000039cb5807, 0x000000000c0b226a,
    0x0000000028250179, 0x00000000613d8f28, 0x0000000070587460, 0x000000006c41d861,
    0x0000000036f8ac52, 0x000000005f0a724c, 0x000000003986ae8b, 0x000000003f030854],
   [0x000000003123e201, 0x000000005e254373, 0x000000004bd6a99c, 0x0000000014ba1880,
    0x0000000007d633db, 0x000000004e87e167, 0x0000000068f9b2f1, 0x00000000043da0d6,
    0x000000004ee5f774, 0x00000000506ca694, 0x000000000ddf9d3e, 0x000000001b505796,
    0x000000004197418a, 0x000000006a6b4d32, 0x0000000016f726fd, 0x000000005602b144,
    0x0000000042e8bad9, 0x0000000029cfb553, 0x000000000401cbb5, 0x000000005797dc05,
    0x0000000002430f2b, 0x0000000015967ebe, 0x00000000303634bd, 0x0000000046e2e060],
   [0x0000000040c765ed, 0x00000000296ad26b, 0x000000002d24e840, 0x0000000038e2386b,
    0x00000000425b756f, 0x0000000076c8b286, 0x000000001bb5d576, 0x0000000024b58698,
    0x000000000804ca9e, 0x0000000062bb9027, 0x000000002073d48c, 0x00000000271cc5f9,
    0x0000000068ac7fa0, 0x000000003cfbebec, 0x00000000379e2841, 0x0000000068a6753b,
    0x0000000017adc455, 0x00000000438a3c95, 0x000000004506c178, 0x000000003c8b81cb,
    0x000000004cc0e8db, 0x0000000009a5e1c4, 0x0000000053a6482f, 0x00000000567507b7],
   [0x0000000071d174f7, 0x000000002b735dc5, 0x00000000309f4770, 0x00000000622b748c,
    0x0000000048f735b3, 0x000000006c5ece3c, 0x000000004bf597ab, 0x00000000449e2dec,
    0x0000000045c0fdae, 0x00000000030704ed, 0x000000002075b5f3, 0x00000000635b51a6,
    0x0000000073d6ecfa, 0x000000004b822bce, 0x0000000043ac592b, 0x000000005f46872e,
    0x0000000017677ec6, 0x0000000026124825, 0x000000002a4f55cc, 0x0000000060581cfc,
    0x000000001dcc129d, 0x0000000002a98a46, 0x00000000518760a4, 0x00000000503b3526],
   [0x00000000373556bb, 0x0000000021e41f04, 0x0000000004f55a48, 0x000000001cc51dfb,
    0x00000000694128a8, 0x000000001867780a, 0x0000000060365c3a, 0x000000005b7c255d,
    0x000000003b922198, 0x00000000025bb5d9, 0x00000000313cd7a7, 0x0000000056fec10d,
    0x0000000041a14b91, 0x0000000050646720, 0x000000003acf8c84, 0x0000000076057d3e,
    0x00000000369edf62, 0x000000001cc8c33d, 0x00000000721adc66, 0x000000004fd87dc4,
    0x000000000cf33c0a, 0x000000000cb78c2f, 0x0000000040538310, 0x0000000069c7b6b3],
   [0x0000000028cc375d, 0x000000005199d4f8, 0x0000000039fe3995, 0x00000000436ee342,
    0x000000002c0f29a8, 0x000000004b2987ab, 0x00000000407b535b, 0x000000004e97e20f,
    0x000000003823b2b6, 0x000000003e8cd49a, 0x0000000019616d39, 0x000000001e23a4ed,
    0x00000000595640b5, 0x000000000a477fa6, 0x000000004c5cbfcd, 0x0000000063e7f729,
    0x000000003f8d3d59, 0x0000000019031314, 0x0000000023f2914f, 0x000000000e7f18b9,
    0x0000000006ad3c19, 0x00000000017c07cf, 0x0000000040d1f59f, 0x00000000230c83a8],
   [0x000000004a8bc44f, 0x0000000039749dd9, 0x0000000032a7ab6e, 0x000000005c0f5927,
    0x000000006f0e20b3, 0x00000000159c9098, 0x000000004481530f, 0x000000003cf76475,
    0x00000000154b3272, 0x0000000030320554, 0x0000000013bc3b25, 0x000000006a7b8e70,
    0x0000000042b6cac7, 0x000000003024ccfe, 0x000000000c615860, 0x000000003f2a77a2,
    0x00000000024947da, 0x00000000350de5ad, 0x000000003cf3a423, 0x000000001d185304,
    0x0000000052ed0d76, 0x00000000721266ab, 0x00000000046f60d6, 0x00000000648ec80f],
   [0x000000003d09eba5, 0x00000000170509f1, 0x000000002d673151, 0x000000000b0d9456,
    0x0000000065cd7efc, 0x0000000004d1e1d9, 0x000000000c3f7d80, 0x0000000055446638,
    0x000000002d7df823, 0x0000000052ae0595, 0x0000000013d73ca2, 0x0000000054320889,
    0x000000006099551c, 0x000000003abef5de, 0x000000002d4b96c0, 0x000000006ddf9f2b,
    0x0000000029531432, 0x0000000051bd1bc7, 0x0000000052c405f8, 0x000000001b2a41ed,
    0x0000000000f9fec5, 0x000000000ca87639, 0x000000002f0d3dcd, 0x0000000033cb3f2b],
   [0x000000006a3d34b6, 0x0000000025ec936e, 0x000000001e80e591, 0x0000000021926beb,
    0x000000007435e082, 0x000000004b56b35e, 0x0000000018463bd6, 0x000000005c4663c3,
    0x0000000052943214, 0x0000000037d0204e, 0x000000006a230bdd, 0x000000003e62e10f,
    0x0000000065856b40, 0x0000000052a61a0c, 0x000000003f75a6b6, 0x00000000694f9b52,
    0x0000000049eea178, 0x000000000896b77b, 0x00000000110912d9, 0x000000003d08157d,
    0x0000000047e1fcd8, 0x0000000019601146, 0x000000007164e1ef, 0x0000000059eade26],
   [0x000000000e760967, 0x000000001d86b90a, 0x0000000029443c79, 0x000000006fed347e,
    0x000000006fc7e20a, 0x000000000de835cc, 0x000000004ffe9bbd, 0x000000001b46109b,
    0x000000001472ff42, 0x000000000a09d9f9, 0x00000000514dfb58, 0x000000002197be40,
    0x000000006685919c, 0x00000000535d05fb, 0x0000000020fbca31, 0x000000001a99c859,
    0x000000002f4fdddb, 0x000000006203c18c, 0x000000000d520030, 0x000000004538f99b,
    0x00000000061a19cd, 0x000000006724dda3, 0x000000004ac6c709, 0x000000003dd2a5ae],
   [0x000000007132fb83, 0x0000000016ac0e4f, 0x000000004f2e2f7a, 0x0000000000b3ddd2,
    0x000000006fbab2a3, 0x0000000063205d24, 0x000000001a908da9, 0x00000000733a3ca3,
    0x00000000258d9d91, 0x0000000069bb8d91, 0x0000000067445ff4, 0x0000000003699460,
    0x000000004b5fb2c0, 0x0000000029c60bc5, 0x00000000088ea386, 0x000000001baecd9d,
    0x000000004ac6faa1, 0x0000000018a39e56, 0x0000000034c9983a, 0x000000005cfb6e93,
    0x00000000275ee359, 0x000000004c3006a1, 0x0000000060d1d24b, 0x000000006b71c2e4],
   [0x0000000007253dec, 0x0000000045241fe4, 0x00000000011efb9b, 0x00000000695b110d,
    0x000000002e747ff1, 0x0000000032f70d6b, 0x0000000049ecacf7, 0x000000005fe77411,
    0x00000000662137c2, 0x0000000017f3d28b, 0x0000000012ce210c, 0x000000001faa167e,
    0x000000000f1652f4, 0x00000000179d576b, 0x0000000042fb754c, 0x000000005d80c5aa,
    0x000000000edd5d8f, 0x000000001845f73f, 0x000000004d48752a, 0x000000004a550629,
    0x0000000018d50e09, 0x000000001bf47737, 0x0000000045017277, 0x00000000554c1817],
   [0x000000002722b4ba, 0x000000003af0bbd0, 0x000000005f88a954, 0x00000000262b4c41,
    0x000000002f37be2d, 0x0000000020079440, 0x00000000713cfb8e, 0x000000002a01032a,
    0x000000000a2a9594, 0x000000004570b69b, 0x0000000060621959, 0x00000000761f1cfe,
    0x0000000005932ecd, 0x00000000093853d5, 0x00000000015af456, 0x000000000ff66592,
    0x0000000052715d1b, 0x000000001cdfb26e, 0x000000004cc05d1d, 0x000000005525f54e,
    0x000000001e051b17, 0x000000004b3e6f70, 0x000000004801e749, 0x000000000f174e61],
   [0x0000000029ad7b27, 0x000000006093bf90, 0x000000001bfbbd52, 0x000000000ba2575f,
    0x000000006ba84053, 0x00000000414f843f, 0x0000000043e05982, 0x000000000b4aede2,
    0x000000000fa78704, 0x000000003ad7e5ae, 0x00000000068fa8e8, 0x00000000776f0889,
    0x0000000064d5b89a, 0x0000000060a009c9, 0x000000000d43b8a5, 0x000000003cb0d1a7,
    0x000000005dd18050, 0x000000000335b9b4, 0x000000005db8efb6, 0x00000000617cfa50,
    0x0000000042a0a575, 0x000000003aef5c61, 0x00000000032d86f8, 0x0000000072119a91],
   [0x000000006c7a5fa8, 0x000000001cfb0eb6, 0x000000005335858d, 0x00000000241a3cb9,
    0x00000000583ed92a, 0x000000002dadea93, 0x000000003fc9f13b, 0x000000003cad3388,
    0x000000005cfbe97c, 0x000000005712f5bc, 0x0000000019b675fb, 0x000000004d641da0,
    0x000000006fe986d5, 0x000000001690452a, 0x000000000b6e4198, 0x000000006c47a826,
    0x000000005dc858fa, 0x000000005a5e4cc3, 0x0000000047ded456, 0x0000000013d8ff3a,
    0x000000003d76c649, 0x000000005f330a8d, 0x00000000335d8683, 0x0000000071f6ba14],
   [0x0000000053f7e1d5, 0x000000005ba0df61, 0x0000000047bf330c, 0x00000000359a65d6,
    0x000000003b7cb5fe, 0x00000000038e1b64, 0x0000000003932830, 0x0000000050b9bddb,
    0x0000000063016faa, 0x000000005b7eaecf, 0x0000000045248b7d, 0x000000003765ba8e,
    0x000000006b87d0b0, 0x000000000937a8be, 0x00000000609d222f, 0x00000000680b5c34,
    0x000000006cc27522, 0x000000001f6c86bb, 0x0000000063964527, 0x0000000070181192,
    0x000000006548a01d, 0x00000000284a1be8, 0x000000000c14c18c, 0x000000002b0d2e1f],
   [0x0000000067d1fee6, 0x0000000077bfe7a1, 0x000000004138f7bd, 0x0000000077f81c2a,
    0x0000000036ef89be, 0x000000004d3d3c2b, 0x000000004169c1e6, 0x0000000001ebe38d,
    0x000000005152bafe, 0x00000000142edd49, 0x0000000077418bdd, 0x0000000049304d25,
    0x000000005553f7ea, 0x00000000392c07b7, 0x000000001d6a4a8c, 0x0000000040134b75,
    0x000000005201e2b3, 0x00000000283534c8, 0x00000000343a237f, 0x000000005c98f325,
    0x0000000042538cdc, 0x0000000049535e9b, 0x00000000169c25dc, 0x000000002e3bf2aa],
   [0x0000000054acfb99, 0x000000001dd4c8cc, 0x000000005430ad98, 0x000000002b0d3de4,
    0x000000005ef84721, 0x000000000ce53d29, 0x00000000148b4c4c, 0x000000006570de25,
    0x000000002476908f, 0x000000004b0ef3b8, 0x00000000469b9c0e, 0x0000000008383001,
    0x000000001b93fa1a, 0x0000000050372dd5, 0x0000000052b7a8ce, 0x000000004753d2ad,
    0x00000000545b28d3, 0x000000001c6d3d66, 0x00000000285bb31d, 0x0000000023d1e4d7,
    0x000000003d6e98f6, 0x000000002b08f179, 0x00000000293d021d, 0x0000000069103f76],
   [0x0000000018b22398, 0x000000002c1b3866, 0x000000002f6ba2fe, 0x000000005bdb177b,
    0x0000000027fb01fa, 0x00000000283778e0, 0x000000005b645e51, 0x000000003a48c799,
    0x00000000084cc339, 0x000000004b590af4, 0x000000006eb21d23, 0x00000000553df53e,
    0x00000000171927b7, 0x000000003a03816d, 0x0000000054fa0c76, 0x00000000656353b1,
    0x00000000759ffaaf, 0x0000000056e77dc3, 0x0000000000111ca8, 0x0000000014525680,
    0x0000000007432b44, 0x0000000009ab3273, 0x00000000542e7cff, 0x000000001d792154],
   [0x000000005a39f8a4, 0x000000006d23d35a, 0x0000000056ae9fb9, 0x000000005db7cf4f,
    0x00000000340ec731, 0x0000000013102360, 0x000000006310fd72, 0x000000000d815f71,
    0x0000000029f16ccd, 0x0000000062020567, 0x000000000c674eb9, 0x0000000067ebaa5e,
    0x000000004ecef5f4, 0x0000000051ee87fc, 0x0000000004b1098d, 0x0000000050e36ca0,
    0x0000000065575579, 0x000000005cd362dd, 0x000000006c79c8d6, 0x000000001835bd91,
    0x00000000307ca76f, 0x00000000357c8529, 0x000000002551b08e, 0x000000004f6afbd9],
   [0x00000000376779f7, 0x000000003de3a7c9, 0x0000000016f2d996, 0x0000000034d83477,
    0x000000005f150ea2, 0x0000000066ae55a3, 0x000000006f9e427f, 0x000000001139a8f0,
    0x000000003600c1e4, 0x000000004be489b0, 0x00000000070110c8, 0x000000002b45e34a,
    0x000000001ac8adc0, 0x0000000004f6190b, 0x000000000db2daf2, 0x000000005bfc429a,
    0x000000003253b80b, 0x000000004748ba44, 0x0000000075ce3c78, 0x0000000016b7324b,
    0x000000007581a832, 0x0000000031793483, 0x00000000755a32fb, 0x0000000018599bf7],
   [0x00000000357b8790, 0x000000001fc581b1, 0x000000003cbe4cef, 0x00000000669ba459,
    0x0000000063484fdd, 0x000000004225cf30, 0x00000000399fd264, 0x000000004e4f393a,
    0x0000000043145372, 0x0000000054f45cbb, 0x00000000439c6be0, 0x000000005a5bb68f,
    0x000000000b4db6ce, 0x0000000072877751, 0x0000000036618d49, 0x000000000d27151b,
    0x0000000064dfb78c, 0x0000000030cfdde9, 0x000000005bc005cb, 0x0000000035f5dd16,
    0x0000000074c3a862, 0x000000007199a143, 0x00000000669374c0, 0x000000003f457621]]

/-- Inverse of `mds64` modulo the frog prime. -/
def inv_frog : List (List Nat) :=
  [[0x4db5c4b8f81b2b2e, 0xdae9d21fdf26d024, 0x706a7d20fd74746d, 0xad76998f01936a14,
    0xca1b241266d92ce3, 0x85586228a0586a94, 0x852a4b9f0c1e206c, 0x5b5b41b43b8bfaf2,
    0x3d3ae8a5dc5b7c18, 0x0d35c4434c86a987, 0xb6846d25ffdf71be, 0xbb101ed90b45783c,
    0xaff961b884d16146, 0x343ed04a8dd964ea, 0xc2a639f184cc3715, 0xb4c361cf16cb5b8d,
    0x612a7c5f6ab7d66a, 0x1757e3857357a35a, 0x830e33e80e34320c, 0xacad77d67738470d,
    0xc99977725ee1b592, 0x9e8f2e11cada4748, 0x4ff44aff2f4af7db, 0x166ecdfdbb1bee06],
   [0x424eb494983802a4, 0x3daae746f042454d, 0x5c525b2c0fc6583a, 0x07898c38ed8be78c,
    0x5c3115c42fa106db, 0xd7cf12ac9b77a882, 0x4ba88d0a3d794a15, 0x35d1b55219b08792,
    0x8545982fe4c61fc0, 0x233d068fb9790ead, 0xc23f1e9c29ce1594, 0x81521bfac9a154c1,
    0x0ec63793d53c51aa, 0x3f0d0f223ac49405, 0xcaa2940a23d90afe, 0x043da2b0c05add50,
    0x86e6294c1c5553f8, 0xba464457d7d994d7, 0x34b2a35fb984e6d9, 0x2aed1069caf8799c,
    0x448e39742aecaf51, 0x17dfb1d223db79ce, 0x68a195e2547b72bc, 0xa723fbb92da53cba],
   [0x5a2097fa87bff485, 0xb864136184317f0c, 0x76825739118a4ef7, 0x7e59018fef8aac4d,
    0x371504045cf705b0, 0x18eb0d0bcf28da14, 0x58aec3c8dbf5e294, 0x39e2ebe6c7833ec8,
    0x8456af158f0ed2f2, 0x8c92a9e2afd14968, 0x58831664b2f31d95, 0x7f79162f9735406a,
    0x228535a60caf884d, 0x4716a00eff3aaa6c, 0xb5f2801135c009fd, 0x4f0b31bf29871b8b,
    0x9dded77ae4084a05, 0x9dfbcae23f65ed00, 0x3947cba91c29df76, 0x72e70314196e2b74,
    0x272ccdb7f0aa372f, 0x23e5b7519d7ba9c0, 0x02856bbf8c13d3b1, 0x62f7d2f4fc0d78c8],
   [0x37f531cb6e54c530, 0x22f68ca8e2a1199e, 0x3aaaf2a3db3fec34, 0x03192a415bd2261a,
    0x3ddaf0643504fb9e, 0x296b2258d25a29ed, 0x678bcdea52230a6d, 0x53fd1bfffa673126,
    0xacb0ea9a9b47fa3c, 0xa5c17e81df7ce4ae, 0xc62a50feb1f25e2b, 0x1d4ea5bfccd2095e,
    0x1410546fb9234550, 0x23e5fa54d5895a6d, 0x7bdd48700539a42c, 0x86d9fb2f1ff8eaba,
    0x1a96aa2bc55173c9, 0x23139ebfcd526589, 0x10a6155e7e893077, 0xd0dc59861c396895,
    0x4e098bda9e07e92e, 0x77be6dab294e5a99, 0x297f58ca1f66c9a3, 0xd1ad534774a225ed],
   [0x2dbde4b8e348e7c1, 0xbf3587235d85db72, 0x83fdcb1b3be485b3, 0x63832b4c33838412,
    0x104284ef9ebec3fb, 0xa6ab4dbb8776b713, 0xc29c556659918d66, 0x6ae36623752fd312,
    0x06ca0fc718b79da8, 0xa485a8e7c4204393, 0xd1fa4c2bbb6824c9, 0x67f789516bdba975,
    0x974e2dbfd30d9f84, 0xce2c56ea2ea6bbcd, 0x754d703286587e5f, 0x8a8988e5a7ec6ed8,
    0xa22fd2e71075bdfb, 0x773ebb3392a29b3b, 0xa0964c8739fe5d39, 0x18f99bd885c1592a,
    0x57bb28b6843baf74, 0x6e22fdf7255f3d72, 0x96918697778bbe6b, 0x46dc14a30c03e8fd],
   [0x10e2136f3ade4c3a, 0xc217d10752ef8b77, 0xc10760b5049bbaae, 0xaf0def998db637d2,
    0xa8f22c8390d2c2c5, 0xbf899c221f05b528, 0x576486274eb2a1ec, 0x1dff6b832fbc3db1,
    0x806001a4d33f77bd, 0x004bf3e4da47cc51, 0x7e3422e1eeb57501, 0x8949c19da79accfe,
    0x6e9df5f5c024850b, 0x3ca29307c0ed0b4b, 0xc7310eee48e46875, 0xc93fb26fa077ed02,
    0x09cb35ab19b22cea, 0x4ccb0b6d644d9817, 0xc8d0891b7d510e96, 0x4b78bc3042388637,
    0x19552d234c9ec704, 0x077068d0c5a49995, 0x75c9fa0283a8a880, 0x63827170c3b47749],
   [0x9ff45fe894b11403, 0x0bd6c50a0940948f, 0x08c3c24bc05280f1, 0xc5290f6bd68e2ef9,
    0x3024e4a9524a6e8f, 0x4d8a74fd33213c64, 0x3046e6daf8047359, 0x752e2ac5d20724aa,
    0x6cee507ca2acccb6, 0x5ba82e65328e8145, 0x3e027ceb5dac010b, 0x4c7f86ae66301db9,
    0x2621999ce910aaef, 0x426b18b99e43f7c8, 0xc7ff9e900fb856d6, 0xc4fd721df8405c1f,
    0xaa9707199c6b9e1b, 0x04508700c51979f3, 0x83d2c2b5e90fff7b, 0x41405733177fe04a,
    0x613a6e80e503981b, 0xd32b285c6e2d8c28, 0x367cc7ccbf595071, 0x57d522bfd97f2f31],
   [0x78500360c4d614b7, 0x7f4a31f86d3815a4, 0xccb6c5d3a05b1417, 0xca87775244d12f8d,
    0xc6e3f8234a1d5ea5, 0xdb9126a04d90c212, 0x8e330e2115b4f18b, 0x44177a4643c6ee7f,
    0xc8569fcd07c9d49c, 0x55eb57c8c914f908, 0x5d0edc45187c3f22, 0x6d35659178254f55,
    0x50bfc7f0411963aa, 0x9ea10fb570237188, 0x580105c6e89bad0a, 0x0d17d5ff9a97bb4a,
    0x582c9126c6f57598, 0x276966808da1e46e, 0x39df8136593f7875, 0xc5110d81362e1ca9,
    0x373267f959fe13da, 0x0782392bb94810f7, 0x0640e3bef21378cf, 0x20ce4acde14f497f],
   [0x92f7ca4a210a3cc9, 0x094d50524ceb3f7b, 0xc716eb71e6b5b7fe, 0xd84b63fd9ac3803d,
    0xc06863760b352164, 0x2df1d12bf79c3fbc, 0x169f102fd62edca1, 0x4bf2fab84532bd58,
    0x00ef07359f0b99d7, 0x3745cd87cad79234, 0x1233b028627e4740, 0x55304f907c25733d,
    0x1dec9b8ec7a4b8bd, 0xc417d969634a9065, 0x5620466f20552e76, 0x9aefb74bfb356a33,
    0xc4b8163c2ab3e869, 0xba176b809afe53a2, 0x931a00ff5c037760, 0xd7af9c77b4b9a245,
    0x3763badafc9f2d27, 0x9cd7ebbbf62f642a, 0x9bf8039018677418, 0x489a1a6dcd3780b3],
   [0x5a7c7a3c09ab5ce4, 0x13f54dc8a5d1ae55, 0xc05bad6bae927937, 0x0b729d0ed6a78b80,
    0x77b25f82ffb6418f, 0xc234166f75950858, 0xcf323aaeba471a39, 0x87bc0f61cb9bc2ae,
    0x95c44412d429e5d4, 0x029d4cc42a923852, 0x111128e1b133df0a, 0xafad80fe2d04afe2,
    0xb272f4fb773b8cf3, 0x836fcd4164206cad, 0xac6833f0e2a79de3, 0x4f33bbbdbe14b558,
    0x9753b80f645f96ed, 0x80fee45af87e40e5, 0xd2c3d86a531c0887, 0xa57d016afb904731,
    0x8d70b003a6d67740, 0x0118c2368a494972, 0x950d4ba748e838c8, 0x988ff59a7450da92],
   [0xdb86dcb37c7ccd53, 0x4865c5e84404dc7d, 0xa49fc9f8a2893fa5, 0x7bcb6cd31cbc0194,
    0x3265da903f2cea5e, 0xb0d1b7428010ea69, 0xa72678b35f0aee40, 0xccd9860387674442,
    0xbaa531215cb3ea6c, 0x36bcec6d1da8696e, 0x74c4292214730912, 0xb586af0f8e388d9b,
    0xab82d4a7b59a1fef, 0xc56894bf495f25c3, 0xd6b6d8429267486f, 0x82e6125c32e50132,
    0x1ad5184d41065d53, 0x572c91aba91e6d7d, 0x510e8a013f09f05b, 0x6b944500587168c2,
    0x6893a0c5735c038c, 0xa82ed91f17e42f6d, 0x75ab0e29f24ed2ef, 0xa6d932e506a2e99d],
   [0x3ed1c326a9f4cbc4, 0x4103f4eb08b476a8, 0x839f0526e562fa41, 0x4737d3b3df9a57fd,
    0x1c0ad8a8e714e848, 0x354b40ea4d3b8f6f, 0x2f451023ec3ed56c, 0x6ae9c4f3f59d2fec,
    0x07d1476e550ceb7e, 0x7c4f21570dfb858f, 0xdbbd7ef497536e9e, 0xb5f52556638aa094,
    0x9f34ce5b0b22c1b9, 0x3a1392194f92c56a, 0x6799e6cc58626b84, 0x85cb842c5b87dd62,
    0xd669c6b2380ce23c, 0xa539834ed57d94db, 0x1bf87300e1b091d5, 0x085f54f9dce572ef,
    0x6ec6528e45cb7a04, 0x1204f6a0f80b8e52, 0x2a8a8f0f249c897a, 0x4943042a2da32912],
   [0x1cf53d7026add24f, 0x4728eee178f70663, 0xbc444d9a31ef744f, 0xb8ca75a4cf06467e,
    0xd8ba319e0f9860f3, 0x5cc247224d482601, 0x977a5b6cea964ba3, 0x38a51daaa911b3a9,
    0x9fc6211199b3d1b9, 0x5aa8fc5dba087127, 0x1edec589afdf5ebe, 0x85f4ee8778fc6244,
    0x20810f1af1a0ba72, 0x62a33c6bd290a1a3, 0xd8c847ee1ad169af, 0xb8e1653ad497ec2f,
    0x17ad276c2a76bd6f, 0xa43f7fb06554463e, 0x21b64630777aa8f2, 0x9c66a4a4bb64e1c2,
    0x3520402995285ce2, 0x193fb0ebf74ab862, 0xc9102237b0985a0d, 0x7eb55c4fb2832ae5],
   [0xa0bea969e3cc5e3e, 0x6fb77ba5faf52569, 0x44b4b5c37db9f3e6, 0xa306aabeef70dc0d,
    0x3165288e77f1a873, 0xbd53808b4ff951c8, 0x3c9c2533aeca5dcd, 0xb8247c1db49dc321,
    0x173d90f86b812676, 0x6d96fb2dda90e980, 0x55003f21a811c4f4, 0xbb823934ebfdf264,
    0x9fc7ddb8f04bd87d, 0xbf14c99ebe062a0e, 0xa3ea8d823ed4519d, 0x2bd071c86a4f7420,
    0x63a7275645d01bc9, 0x9ece784661ad2c42, 0x3c9ab8a585691d57, 0x8ca9a8ffe89827b7,
    0x31aa69e61481b199, 0x942f6334535d4abc, 0xb45fa43b34949099, 0x4509ab4bab72cb4e],
   [0x3b5c8f754e116caf, 0x72593f1b7d96868f, 0x798176d903db10c4, 0x6d68dd93368f188b,
    0xd73fb1640af213d2, 0xb24daa68721e9735, 0x8156a6d29a9734bd, 0x05291f75073ebaeb,
    0xc5f6a58978f49d2d, 0xa84ebae0b912866c, 0x6dafebc174028c8e, 0xbd357c93cbd18c21,
    0xd98ea15a9c31ee39, 0x3b4423b5a0add424, 0x9cdc1caab5843341, 0xc0561e75264498ee,
    0x3c3106ac8bf4663a, 0x632f597d85826b12, 0xbabaf30a4f14df00, 0x12f070b3b80f5c63,
    0xd4d83856528d851b, 0x5ed0eb1f408e96da, 0x16a8b59051a9f20b, 0x9122b7190eaa2217],
   [0x22c64bb49473cb63, 0x9932e00213305cff, 0xac87817eddd48487, 0x19b1674b4e827dc6,
    0x85f939f2abc2f513, 0xcd38e17e43a7f239, 0xc65435dd86b4463a, 0x8a67b21df7c69e09,
    0x3e28c631cd86e3ea, 0x37e3c04c92213a3f, 0xa40cf596ace1c0d5, 0x61400830cfd20d5f,
    0x8c87ea852d019075, 0xb2377f8e95eca262, 0x7bdd6a727646fb59, 0xcee823d4fff18aa0,
    0x0dd99a3456f6c5d2, 0xcdf85e6c62957f45, 0x3d1ab40ce2f4b0c3, 0x9356ceb5c52f25c6,
    0x14ae2e4ffe2664b6, 0x5464b8a072ee09b5, 0x6ab22926deabf132, 0x5bb154e88dd69c3b],
   [0x7627e308158ee22a, 0x06ff8ad9c856e219, 0xb7eaa9bbe89169fc, 0x9bf2af186a33646d,
    0x7920177a1483cff4, 0x62a61caa9f33909f, 0xcea86e7bbf88a3a6, 0xa9bd9a880effc855,
    0x1b848873d6213fdd, 0x28592b8c1ac2bd8c, 0x1ce8643cc8f53c2e, 0x30d91114335ec1e9,
    0x54845c17328a5810, 0x98971a2eaf0af9f4, 0x315a0d950d81f24c, 0xcdc656a97779b3e9,
    0x0c2b1293397a3438, 0x26e6e7b24da7852b, 0x0c38a9584f348365, 0x854b3bda97327f22,
    0x85f12f98311c3c47, 0x1b93e9c4043773a0, 0xc8fe7b0a80685417, 0x9d4a5b7c8d174fc9],
   [0x2799e1e564b84b29, 0xa7bf7943c872a8e2, 0x87fbba4c603ec3b5, 0x581cab35aca5d34d,
    0x34ad70b675720975, 0xbdc04a4684924f53, 0x1215bea3d7cba874, 0xb53e2c19fc9522f4,
    0xbca8f37345d48aa2, 0x9eafeab0d7797ba8, 0x0e99769dc4db21af, 0x008d793068d598dc,
    0x5225aa4f7f0662b3, 0xaa4a4358e94093f4, 0xd613e9eedab2de93, 0x8ba2f167d4705870,
    0x8dc7ad4b26e9bc83, 0x11a6fae0243085d8, 0xc218d14aa4d19cb4, 0x09b2bf884853b73e,
    0xc1b01fc2b5c0f337, 0xbc14a777950908af, 0x6a5d8f1687fe008d, 0xcd24f954bcc94746],
   [0xa80aabbb8c837b80, 0xbdbd9b527d1c5186, 0x4c93f1d7e55d7416, 0xc644f6d5379a7d69,
    0x440b9257f7de7f33, 0x67bc5ecb87b54902, 0x20788f6b9ebef651, 0x3db9410419b93866,
    0x543fe89b7bed38a5, 0x86b0a1d29eef4e4d, 0x95b88f55f53a975d, 0xbf3b0e1a8e6686bb,
    0x1b798312fce7af7e, 0x390571879b66949d, 0xc63dcf96776677a2, 0xd202af9a21d9e440,
    0xbf40f9d8396c75d2, 0x342e89dd3b850b5d, 0x13abd2a2937670df, 0x011b7aac639291ed,
    0xaf2aa9a28ce87a5b, 0x07b6c0a8a5deb3d4, 0x0c0974d2933a5e03, 0x2ef27efd9d5d9ff1],
   [0x8008ae037ca8f88d, 0x68b5d3492c4746e1, 0x61c8f4c3e32953c6, 0xa34772d3d851a799,
    0x49e4a6f9dd470693, 0x7be871b43c8e1b3a, 0xd69e4209c4faafb6, 0xd57d192de3616045,
    0x99c0318847ac763f, 0x407cc6dd17bb236a, 0xc107454a1684d0b6, 0x807e7c4e859d5b4a,
    0x3dc57fdc4581b287, 0x7a40f4ea450028a6, 0xd45c11f3e4a6197f, 0x87030a7637471bd6,
    0x30c172c328e3afea, 0x7300c3bf25bc9780, 0x795880d2b4f59fb1, 0xc69754ca8a2ab42f,
    0x9a82ddadfc77231a, 0xb743ac2f4828ce84, 0x553f53f96582568c, 0xb1bd60f62b53988b],
   [0x703df9ba7f1c5d74, 0xb6b21d45a757a924, 0xc61cdbb89118f4b7, 0x5d2d513575e330ae,
    0xba4e7b96aa087256, 0x53d2ec6a7caec2c5, 0xa203107c0b82377a, 0x7fc64f92c177748d,
    0x65a98f6dab48f071, 0x3fb1d7f493e9a8ef, 0x24c808a2c558aaba, 0x7bff1d5c7d8d263b,
    0x5af5774506d90969, 0x5c9f02a4acb15fa9, 0x42bd1e4ad3855c1e, 0x774f0acf86ec7978,
    0xc35c53168902bad5, 0x3be950ef9f566d9d, 0xa9b231a50d1f8cda, 0x5cc64f1208ead767,
    0x7a80f933cf773c57, 0xb9b8d18912747181, 0x496b9f22f62f5fc4, 0xdc5c0bae6ab6f508],
   [0x0a5369b201956820, 0x4be1d69b9aec6f67, 0x703b13297d4c743c, 0x74facbd643ff8af7,
    0x730ab17c64ee0215, 0x808da523ce068d4b, 0x7aadaede99c56f88, 0x2e295e17ab84c5f6,
    0x2072d121c5208a65, 0x1976270d3a98a400, 0x3cafa542d4360cd4, 0xb546cd50360f6732,
    0x890e9f3cbfee6430, 0x984f561cc6d6c92e, 0x5a81501db73cd3ef, 0x2cc3c073c5ca69f1,
    0x6e193ed74281d380, 0x55e9fb431ebe589c, 0xbb853b9da490ba55, 0x077b50e299ee50ff,
    0x95f2292249be006a, 0x7012f2e579a8a31c, 0x752603513ed6694c, 0xd20f8735987ab5e6],
   [0x945d05d487756d82, 0x4f1d2a4e47e4851e, 0xabd8e2d7f226e5ba, 0x316d5ff0659ad9c4,
    0x6aaa294b36827014, 0x6fe5151de0212cb2, 0xb822d96258e97828, 0xa9280c8ff6d03db6,
    0xb76e91669a30a505, 0x6b7bb791224afa90, 0x4e24dd80602499d4, 0x8eb4ca68fd367167,
    0x1e0b825580205dd1, 0x5ff926699547e545, 0xa5484d61e7b7288e, 0xc86d647b35b50808,
    0x0550377d08a2680c, 0x8cfc4cf0ac14d62a, 0x125e6d14ed415617, 0xd5c85a28cbc6eced,
    0x34e565657bcffdc0, 0xc7b0c798ef24402a, 0x173e779bdf75f4a3, 0x987ccac828430005],
   [0x3bbe4cb464936a70, 0x720b2be292a6e38d, 0x78c5d620e30d4590, 0x9f8d994135afd164,
    0x648451127d4db8fd, 0x6e1a40ce8ffb75b1, 0x7f802675614f18b7, 0x41016460ffe36749,
    0x638f4764055b77b4, 0x07d7c69463fd18d5, 0x95528d611f5c9be0, 0x1a8c13d9a0135f89,
    0x58b0a6f005bb1157, 0x939a07af91683e4a, 0xd315cfdc0f8f6a84, 0xa03d4c3c672cb974,
    0x95c9da9c62349eef, 0xbbe46f49143b06b0, 0x6e7d4eeba81e4da7, 0x39bc88350f30d0ae,
    0x738ca439e4a7daf9, 0x73be3a2532202b76, 0x04fabb1e00e5282b, 0x07594c32b67a976e]]

/-- Cauchy points of the rows of `mds64` modulo the Goldilocks prime. -/
def cauchyX : List Nat :=
  [15776591753726736, 5243067040551285751, 16860437744960199544, 10201558562800850515,
   17484132801202607999, 13878061018811744148, 2913414231433075186, 17742133732120679684,
   10955271431439975345, 3498765004363879012, 3232632212540148174, 17970769865794239158,
   15936567185508047284, 18289774178999007592, 174740201213600354, 16921671223328019758,
   9251663107167776393, 8155868409436883018, 1751700470364598061, 1934826565145616626,
   14988312935241228717, 14463429580077646082, 12219681394702412129, 12344983047405255842]

/-- Cauchy points of the columns. -/
def cauchyY : List Nat :=
  [0, 13767460556803948180, 7104628841603063266, 10811825562755349448,
   4896307131756170959, 4360836331918711334, 16226069631562223968, 12658374546011599596,
   458634157678506686, 13341136018199960031, 1492802092461253332, 11016725831124859340,
   15647076051919875176, 8505186347766814688, 8344938077079937070, 2589649631266250617,
   10716027559900915350, 14633368835380895181, 17467992900900741708, 6829525083111401806,
   6850041432780964800, 14813549968904132465, 16879233961836639929, 10381740655713444726]

/-- A vector with five nonzero entries whose image modulo the BabyBear prime has five zero entries. -/
def badBabyBear : List Nat :=
  [910371119, 0, 0, 1283651243,
   0, 0, 0, 0,
   833934335, 0, 0, 928714063,
   0, 0, 0, 0,
   0, 0, 0, 0,
   1, 0, 0, 0]

/-- Its image. -/
def badBabyBearImage : List Nat :=
  [977537846, 816310979, 1298473380, 1978660087,
   0, 73553455, 1455739072, 664354172,
   0, 857773124, 1771596463, 170279095,
   1986844776, 244311637, 970573407, 2005783922,
   693984503, 1669117006, 0, 0,
   0, 1697133584, 810808841, 297908457]

end Verif.Poseidon
