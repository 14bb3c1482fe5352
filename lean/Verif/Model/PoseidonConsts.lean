/-!
# Poseidon constants

Copied by a script from `crates/cyclotomic-rings/src/rings/poseidon/{goldilocks,babybear,frog,stark}.rs`.
The tables of the first three files are the same text.
-/

namespace Verif.Poseidon

/-- `goldilocks.rs:13-794`, `babybear.rs:13-794`, `frog.rs:15-796`: `ark`. -/
def ark64 : List (List Nat) :=
  [[0xb872395376c3f222, 0x7d7c6c8d6dda795a, 0xc1a1e1450d7d048e, 0x37eb0d1b1db5377a,
    0xc4bcae9b18a59675, 0x71b53bb0a698e945, 0x2bf969e10958afce, 0x7d547ff97be746ed,
    0x039f63f1e29db315, 0x3c1ff85fc2faa32b, 0x90726208dcb17d1c, 0x9c90cd53e23b6011,
    0xc58c9dad698777e0, 0x141ec36e6fea61b2, 0x07c39986c2451f69, 0xf993966c72c1a7eb,
    0xe3938b0f5ee41384, 0x83ca82679ec4b5f6, 0xcb64cc3dca7fa41e, 0x8840e8205e53d58f,
    0x1f3f078825625b52, 0xa72bf89dfd2c2f87, 0xc9e870ff497c838a, 0x426a6f37e7ae0634],
   [0x4314cfdcd95b0740, 0x92a7f6d3314f8a50, 0x156758fbdcf9c1ee, 0x8378d076901e56be,
    0xe1d97b6e463812a7, 0x8d46d2652bca6b40, 0x1ea01b3bf7e5cfe3, 0x906170850a1cffff,
    0x9643d41e81398b4f, 0x301a20019c460b34, 0x6ce25ea766317b4e, 0x1c261cd0a6080260,
    0xe11c4fdff98687eb, 0xf3b4ed6258851726, 0x2a77f334bf614629, 0x567d7604f6f3c921,
    0x2e1bf953f8665f03, 0x93c80c0e670b8953, 0x58b039468b4f6ee3, 0xe36a89b1ffc54d63,
    0xb30fc735a5d99435, 0x1d919c819c473bdf, 0x6daa31ea18a7bc11, 0x16471ed8a5579f77],
   [0x0cdd3af8ddada773, 0xd078e5fb0ecf9625, 0x4b975e2da42d49f9, 0x742cf192dbd445d5,
    0x57e9f5d56874544f, 0x6a8da54d5288a300, 0x225dbda097bd252a, 0xbe9eb51ec094d9a1,
    0x1ddb4046d4c7c116, 0xcbc7e7b40bbea879, 0x93166b2f6414b901, 0xcb11dfec6fbb8e52,
    0x2ecbf1f80014e579, 0x15060341ca9d22f5, 0x1fa9b7a194723117, 0x3c2c3f71dc560bf4,
    0x5f97a5f4043339a3, 0x4392b244d1d5c960, 0xa801965518f6c110, 0x054d6ec710d1d8d2,
    0xd65f11ec2f9c9265, 0x0f47bbb086b1a190, 0xda31dfbafc6a76cd, 0xe7ff26ac0f400d2c],
   [0x89f43015ee3f11d5, 0x8362e3a83b5c87a7, 0xe43d40b6fe4806ed, 0x3de4666954796d0a,
    0x81efba88a5a5bd0c, 0x14962857ad16b327, 0xbdd58805de1bbe5b, 0x182747b173500cb3,
    0xdac897a37c8d3673, 0xcf3423a4f52d256e, 0x61af815c01ad11f1, 0x5572af14b3a045dd,
    0xe604d80d81deec38, 0x031a31f537d56d21, 0x2a1ac61a3d836c1e, 0xe2e5d6750882a1fa,
    0x9456bd7eada108b2, 0xc3fd14f704898765, 0x6aad6c94f578da05, 0x6e622f104488d85c,
    0xc8945dbd1b0b3c67, 0x4e555653569e8fe2, 0x6e6fb4afb9147379, 0xa099b0ca9f55bfec],
   [0x859bff4cfb815f66, 0x6725eecc958f9066, 0xb8b999428093aae5, 0xf507d3a28abd9528,
    0xc1cbd266d76a07b9, 0x8f870dee1a225f50, 0xf9ec5d885f91c224, 0xa31fc4e1f06777f5,
    0xc2a722c32ddf0699, 0xa581b9da188309b4, 0x998aad025ad11ba3, 0x443de5cad68a0c83,
    0x5dd46af323630c9f, 0x92cc7b2191aa18b7, 0xf27884b16af142d6, 0xeda382312a75bcd2,
    0x6d1c398af14aac0a, 0xf56d4baef333ebae, 0x0110cf87d458dc79, 0xc2a6d1e83ab3b7a5,
    0xb246c0bde623c7c5, 0xf4d8e7384bc7ce9f, 0xffc81193376c8d6f, 0x65068cb1af18b3b2],
   [0x2ad75ff59419ff2a, 0x8d8e0ffa5dc273a4, 0x6cf77dae86ee2d35, 0x89c7df66cd9807c4,
    0xf6454818244090d0, 0xef6104b209b0b1d3, 0x8e9cf4285d7071d8, 0x9318266cbec0c0a9,
    0xcba6b13786123742, 0x9ecd446df78805f6, 0x9990981422f24ba7, 0x27ea278397f82898,
    0x9c7939759cee3520, 0x43265790682ebeaa, 0xf09fe17c2b20e5a7, 0xd0c44de757df8ca8,
    0x78467f5491ba8979, 0xf26c4954e8816f8e, 0x061904592de1f069, 0xc5ef15a2b2b4b596,
    0x8d340e0d7f29d3e9, 0xb8574407bdefb1c8, 0x5bead7b674257ef5, 0xfd13d3db5fdd2dc8],
   [0x7e882a45092af135, 0x202b3667250e7767, 0x1813b1a84a915eb8, 0x8d6e2342a5d2bfa3,
    0xea586b679c23ade6, 0x79b8573bb3eadb91, 0xccec2454db884ccf, 0xf78ce820fed76822,
    0x44a5aeb6eb5749e4, 0xb21c684f44119678, 0x36e69d844defa80a, 0xc57d8acf6e0f7ba9,
    0xa2d10cd73b240141, 0x84672d34689ded5c, 0x18313f2619cc4708, 0xca8ed13987b100c9,
    0x5e2a3d35773bb9d0, 0x997580bbddec1762, 0xd77717409a19fd54, 0x86d8b7f2a0ea4a1f,
    0x2b47aa3dffb33a7d, 0xe33d89e53511c6f2, 0xebffcaeef0a009dc, 0x9dd655f164ba3f57],
   [0xca429d053c15bbf0, 0x4209895ffef00bfc, 0x2bf56e4e8b9628e3, 0x977eeca95d919f44,
    0x5d308377fb7d5a49, 0xc05f3158cc3a1c98, 0xc3161ef16a5df467, 0x7a4b9c1c6ca931c5,
    0x9c0b8968d427bca1, 0x01ccd501e8e1eb46, 0xa442344e50b458de, 0x0d4b66d8d4b59213,
    0x9c34acbaac050c48, 0xed456d99ad122ee9, 0x2480e218a0a79547, 0x391531ec020eddb6,
    0x9d88b6a526385791, 0xe83ea68627ead11d, 0x0596f7aaab1bd3c4, 0x1b54bf08f680cc3a,
    0x1e0adfe5a7691a37, 0x5835b5c5bd242eef, 0x6b4166a1ac848543, 0x157050c069a612e1],
   [0x03cad0b28d0dc405, 0x86a1c6ffc30b5366, 0xe5c4c673028d9eb7, 0x2aa0959e65bf3d88,
    0x9689b17dea4ffab4, 0x9f33b26c0c29d748, 0x92dba3d9a7c6cc2b, 0x64b1ffde84e0be8e,
    0x497e2fefcd9c123b, 0x038941e2c91de4a6, 0x46bace39adf392ae, 0xc6cdb4f961fe5d40,
    0xe78d7eca4614b50f, 0x080921c1dfac1f1a, 0xd02e64dbe2a9e171, 0xdfd692b97654269b,
    0xb5e89b1ae4d73426, 0xabb2af48fc4e6386, 0x90c7614f5262f6d0, 0x762ac2506830bc09,
    0xb9610ada762a35ac, 0x720617d63864a661, 0xaa316a39e4af856b, 0xfecc9ce2722514ca],
   [0x0985cd086e8d3c9f, 0x4b333e3a97120587, 0xd73b5f3d5b69e171, 0x6958f7ced05f7420,
    0x917ad2cb2566bd9a, 0x156ce2452fc1c2f7, 0x4f6bdbf3e80e6c61, 0x346d3df42d8cab9d,
    0x0b383d1fcbb108b6, 0x1cf04fa09e669dda, 0x9973f2cdd358ef1c, 0x5952d54bc5cdc896,
    0x6857f66f269792b5, 0xbf7fb7117323b534, 0x7e04a971d1eda87c, 0x36ccdc0dc562d53f,
    0x6c646da7a5a4bee2, 0x4920ccda161dd87a, 0xe940e971b3ad886c, 0x1f06991e14ef0e8e,
    0x48fc9ef05e756671, 0xd9acea3f9219fb50, 0x5223c72945837fc1, 0x73360c1d1f35b239],
   [0xfaaf0ea3af6eda6a, 0x219d1bb3cf2b7d65, 0x7d100c0d1ac81888, 0x8ec49a2bdb3d7701,
    0x700c2e8a490d6e53, 0x9b253f521b80d25d, 0x54172097a3beafc0, 0x196c19d164bc2eef,
    0xe15f769fbeb5a97d, 0x8a1f03d3c8f225a2, 0x8ffb9ad395827440, 0x79cdf18345e1e98b,
    0x2c1ed43b7a27953d, 0x86697cd2e0cb32b3, 0x368b77b774dde8b7, 0xc54531516139b664,
    0x5b6c016af832bb1f, 0x1591e66fdcf2f518, 0xd86fc89ea6287119, 0x6910f65ca3205303,
    0x82548e013c7b5f49, 0x3a95f1a396bcaf1c, 0x9b5deaa06eae9a09, 0x40ff21cb3a5631c0],
   [0xded0dda2fd169b31, 0x7fc791d354693d76, 0xd46e1ac4c65313ed, 0x9c3eebe8b5fc0527,
    0x6d30d5ead668b552, 0xa20378a271dd2124, 0x6d9511897ed8422b, 0x31869f44c2d6828f,
    0x4df3c36c3f7a141d, 0x2f460cb7131a3eb1, 0xd95068001988ce49, 0x1c422a9b38b2ba33,
    0x818b7cf735ef9e87, 0x40d05780bbd29808, 0x54364cdd750e5977, 0xb4df3ec5a5334ed7,
    0x6e1771fbf5572c8c, 0xbcdee03578f71987, 0x5fe8319e20ef8267, 0x67ee3ba6cff5ba7c,
    0xd15c93bdd5468e37, 0xe5509707f63dee0d, 0xe07c6e4e5ad5217c, 0x3f233d9f27dd32d4],
   [0x8b30f33bd6b85c9f, 0xd1d23fce7622ffdb, 0x19fb4fd353b93720, 0x0b10a7fa35d8ec2f,
    0x3aa84d8501781423, 0x22b7f53339cb7513, 0xaeacf0bc09034211, 0x17462ccb38556a39,
    0xbabc459b985c611e, 0x97cb229412cf4fd7, 0x60c41e807f5288b2, 0x601463e4b0fcfc28,
    0xa15eb67b20979f19, 0xb59e96953cfe10e2, 0xeade0fb7d322984b, 0x8c822813528b44da,
    0x6e1031b5982b9904, 0x83b8b54c5e0de780, 0x870cf1efea560234, 0xa600a53c11e9eb80,
    0x3d2882836770f783, 0x3ac7b9c3d1b01d23, 0x55c70ee1a7d4b3ba, 0x30638435e6b1f039],
   [0x70e1fe292d854119, 0xdc4784dce330f8d9, 0xa8ae0b239b820a65, 0xac98204b001da3dd,
    0x9c8864a6beea1ee7, 0x13baebb85737b0d3, 0xe4e2da60e5400cc4, 0xd0e6c79e013bfe8c,
    0x041a6548aecfd520, 0xedd73ee58a647f8a, 0x61d51ec95237546f, 0x542cefa223d2b1c7,
    0x716d89f3612e8225, 0x5935696457764161, 0x74fe91eca39af8c4, 0x91d81c57127c7f0a,
    0xa0e5b704ca60be49, 0x4e58a4a5a23960c7, 0x7f792fb5dc43c091, 0x9c17778c1845a141,
    0x1fbd05e2f8991e74, 0x21cf531acbf42624, 0xe89091c68618db99, 0x063b2b63b355e67a],
   [0x495c708f428c5407, 0x41a0bda5cb74f93a, 0x439fcb560a6fc868, 0x77b597ab8ae8ab10,
    0xc65676ccd03046d5, 0x3b13a96b6e31e3e2, 0x7292eca069830219, 0x80b0dc886fb738d8,
    0x43898baf80328b3d, 0xf7bc32c8a25df378, 0x91eed6d925dbc3f9, 0x0dbbc585b6dad5ef,
    0x2e0ef4e8d2f023f3, 0x32830b8485c30573, 0xa968dd50b3d2b2b0, 0xee7a7b3492c123b1,
    0x97b5a5b3f790a7c6, 0x0e82f741e12ab8a6, 0x0a32bb7e61903e70, 0x544a084d84d11b1c,
    0x7700a13108a6532b, 0xcc089a88ab80249e, 0x16411f9a6065413c, 0x165668d331d4d540],
   [0x5ed6d89fe6924a43, 0xcbca1c3c36584b1b, 0xaae1f3f5ce373378, 0x64cac3b6c5782377,
    0xd3768367f9105aa4, 0x4414d1db2f902dde, 0xbf1f3218d082865e, 0x98d423a76d7cfa9f,
    0x6bfab27171138269, 0xcc832d29f9453be3, 0xedce62132ddd9004, 0xd42095f5a81307dc,
    0xb365c562a15d4cbd, 0x46db7026067e9d79, 0x8e652c470807079c, 0x0b8317e6cb0fb519,
    0x1e6d710a96a0661d, 0xa2832149e4e33c56, 0x7aa5bf9079a56b2b, 0x43fbee5d52a865ca,
    0x1f2649751d684f0c, 0x3cbd3e30663c8aab, 0x2503d3565c6b1271, 0xd1b6c6431a5c0816],
   [0x45a182276f6a0986, 0xe0f721966bdc89eb, 0xa39e5a6f1ddb33ec, 0xf2d6c2e8c5206fe0,
    0x79b990aaaf02d905, 0xb52859771f63dab6, 0xfb193201ed0a3a93, 0x2474334700abe4d6,
    0x589507a4a4ffebe4, 0x60fc7a0ac9ee5488, 0x2220732050404a8e, 0x005d0d2202c45b53,
    0x65429dc2cc25f163, 0x3e97114b63b799cc, 0xbd942fc56751fd57, 0x456b22d8a37c2464,
    0x8ff3bb0e3e1d0ee7, 0x3955689712515ece, 0xb316b0791f6ccfb9, 0x26c2dba328b61ed9,
    0x938570a663d8adc8, 0xb7218124d033141a, 0xb1ff3c436b6afd75, 0x72604031a5a7283d],
   [0x8ed3b68a991c4c2a, 0xddd1e0c78f469137, 0x6c5376cd5b7fcc10, 0x6f8ee3b053eee9d3,
    0x9dd7bafd228c49d0, 0x5ad67f1a71dbb664, 0x3f7985ea12dd1706, 0x29d51b7931de2ede,
    0x930f8bd81d72da91, 0xe0674af4d1ec6d85, 0x71f37c1a8c0805f7, 0x07b7b001b8dd00fe,
    0xaf576ecf1c0f411b, 0xf57002e63c22d74f, 0x2580a3de9a3a5abe, 0xf8a060907a191899,
    0xcd2af931e55596c4, 0x16dfaf4b40a9c4fa, 0x2e6ee13f07983235, 0xe749ecef64d63dfe,
    0x53f221e4b65e07cc, 0x45b059bdfe11bcd0, 0x1393fe7ad53c1cb9, 0xab3424570e63fa76],
   [0xc5ae17e406d14f1c, 0xb0f91d8b154ce8a9, 0xb4a5056782cb39f8, 0x16774735c2b1a754,
    0x85a1d9db678e01da, 0xb81a935f9760153d, 0xcc46cdb3f6fa159a, 0xdf76416cf26d24f6,
    0xba3d97c6b3bd8507, 0x8a0947d397eff0e5, 0xe2945b0f461e1bac, 0xd493d63ac6497473,
    0x588daa834230a59b, 0x20cb06ecaed4184b, 0x7ac9e1b0ae5d87a3, 0x84726227c5549094,
    0xf24176a7a874c684, 0xe5af08a57af306af, 0x915fd3aa481dc75b, 0xd38c8c779462b667,
    0xc53e6e415de04194, 0xd4b58b6c9901102a, 0xe9ee1badc53c3be4, 0x20de77729749e5ad],
   [0x416a09b99d5aa758, 0x473ece84c6331c0c, 0x5086b279ce5a889a, 0xcdc7731deee8a46e,
    0x9696568d8313bcea, 0x4f3911ba864e6b82, 0xa6b9435aadf0edfd, 0x10846051bb86ced1,
    0xfb61505ed90b0a91, 0x437b8d32f843ca06, 0xcc9cbe26e2d29db1, 0x7855757e39712e9a,
    0x3f321f61419459fd, 0x7232248f5bbcffbd, 0xdd79bae4544819bb, 0x11ce0e4d13b4931b,
    0x6233ea9f12966a9f, 0x68d47e9d914106e1, 0x3435c9e0351948b2, 0xafd14d9ad2c01b12,
    0xef90c93fc110c23d, 0x32a825d645ae478a, 0x9b3ab6811e6c13f1, 0x94b0125d178aac9d],
   [0x886a1e92d5a92df8, 0x97b334c9b8cd2deb, 0x1d041125dc72ddcc, 0xf732f2a4fefcc3c0,
    0xfaa05dfebd06148a, 0x390bea785cacb3b1, 0xb8238931b7780ce7, 0x583b217aba5e5ead,
    0x00dd33813e7c9a14, 0x018a415e29ba69e2, 0x87f0118840634a6e, 0x4211aad8b9c675ff,
    0x056595bdc862a03a, 0xa815b33d2f2b16ec, 0xb09e804a48678697, 0xac81f7a133a531f7,
    0xae5a90952bae7626, 0xb14edc1c86ad3028, 0xb72861857aaf1b97, 0xa5293f8608044c0b,
    0x9670bf8e2b8aebaf, 0x88c5072fa96f5900, 0xaf236e2127c17e30, 0x1bccbfd05c24069f],
   [0x376ac12932dfd6a3, 0x002e44ff66f7142e, 0x445fa9db5939e32f, 0x1e7ef52b37a6a4ed,
    0x6114bcb1073e316d, 0x6be21eb68d0400be, 0x723beaa709da00fc, 0x3d2b09dbade93f96,
    0xab0a0487bf9c78a1, 0xce0f0c5a2b459b3f, 0xd4c581b8b6b6af78, 0xe0f5cd2c48764fd0,
    0xf59500e60ea86bb4, 0x7ebb01fd446d15f2, 0x85d8ac7f1342dab0, 0xe015b612c72c2bd9,
    0xd7f43986b8f29dce, 0xaf0b0d647183a9b9, 0xad6163ca06c6cc96, 0x55e4155c23d5df82,
    0x7e5e3397db582d35, 0x200c61224abd503a, 0xeee2c631e8ead78d, 0x77256c45be60b3f7],
   [0x18135e1b8ea31bdc, 0x87809c7ac25060d7, 0x6849076791034cd2, 0x11052c2f2b632fe0,
    0x7a55f4cc2539c1c8, 0x93eabf9ef17771ca, 0x0749e7e01c3de8b6, 0x4a34d515312fc31b,
    0x05ca352f4f7073d1, 0xf652d29e7b9e2a31, 0x0b23ae3540e998ec, 0x2f2ccd8c85c64b8d,
    0x06e9902f75273139, 0xf94dd66a64dbc7fd, 0xff75cc7e6a7ec0f1, 0x1c3cb98a40a43131,
    0xe48d582f32480f37, 0x4a3eef0b12f2524d, 0x99761629ffa8c8c9, 0xb0093e7c3419aaca,
    0xbcb2f73bf39ba594, 0x88000f314f8c96ca, 0xe34057b156536f00, 0xbd7833560e71615d],
   [0x32a946eeb6fec92a, 0x0a6a85748461606e, 0x5cba2346dcd7849d, 0x13e9c0842a69cfc4,
    0x682228b4b5c94ff1, 0xcb1316389a14427d, 0xa2b33f775c13f863, 0x5b2480fb74eaf23d,
    0xfdb24724a0211e95, 0x90d74814aeb23167, 0xa259daef26d4ccd1, 0x35c8e4936d1c0f67,
    0xe50aaf79ab598b9a, 0xd2f43b60a359ecc5, 0x07c7b03b854841e5, 0x0ecd0b915ee0db18,
    0x8d5f6a8bd73c16f6, 0xf22d9e2d37727eaa, 0x0d2883de508466fc, 0x36abc80dc37612d8,
    0xa66af1d3c75d703c, 0xefd052c8e54f9dd1, 0x7e2884fd0cf4187f, 0x1bade50d9d6d8e20],
   [0x596781cb0acf4c56, 0xf5f2ff9734b83cea, 0x898197bb713c7cc7, 0x12b85d1eada79d56,
    0xc791272ab0f94a19, 0x0473748941def820, 0x1843333e86bc8baf, 0xff98b703d9353e29,
    0x7d4c303335357bc0, 0xf6d876d6985a74c6, 0xe5954076df382a27, 0x23c3807ffbb639e3,
    0x973dc7352ca546bd, 0x6cba07ee4d5f18a9, 0x3787f7e5abb24e99, 0x488762017e0e81c2,
    0xb57715b42aa89e67, 0xc209a364b0df2f9d, 0x072814fd44cbf2da, 0x6232ac5518a8a559,
    0x99619e884510dcae, 0x07386a13a5f9662d, 0x691ccfb6ca88c452, 0x5fcf5321e22b5e76],
   [0x5d64102e8a84e8a4, 0xcee6bf1078be6967, 0x25e2ed5f1a68247f, 0x10d311efd67eea96,
    0x1a745d030aebbc40, 0x030ab4dd90371772, 0xc1b8ec7f6b543e45, 0x50e8a3e6333b32b9,
    0x8a0d8b1c7621daa8, 0x759e936ca6b91938, 0xbf0bbaf82fc4c0b0, 0x4eb75bb703b4d6e3,
    0x66aed9b20ace46f6, 0xeee7f984ff048a96, 0x66e71086327815d4, 0xeb85bf106dc96f92,
    0x707b5d55622f7ecf, 0x38089e4627c11cdb, 0x476e90101299f0df, 0x03c7fec5d73597ee,
    0x738c430db7fb71d9, 0x55d6181dcd09c7b4, 0xced74df130317e25, 0x5cf82d6027f37041],
   [0xcf48783625ff7226, 0xd41290514f23ba7d, 0xfa2f3ae78faf9f84, 0xafb5d4a2945e6ee9,
    0x964e608185c6b8fa, 0xdc2e37ea7d2635c1, 0x7bc52396daa20476, 0x1deb31f73737e5af,
    0x106d8f1b8cc17f99, 0xaff7e7e7abda6bab, 0x57a38cab2998db16, 0x50160e8b08a1f89f,
    0xa37026c95d8416d6, 0xa5754bd74b99066b, 0xfe7da192126d0cc5, 0xdd2331eaf30a5c38,
    0x2109532b685015c6, 0x1697fda3b1cece3a, 0x364f1a76012ef83c, 0xfc5ffdfce8ebbf00,
    0x2e0e9d8b0a1576ce, 0xbc8fdd2652908029, 0x7207fd7852aa795f, 0xd3f3eaa8a4d55c4e],
   [0xa9f5e19d363aced5, 0x5931b202ded2cfcb, 0xc5a1f208d96fcf9c, 0x61e4dbdf78e9b17a,
    0xace26406aff7cef6, 0xd7df38236c7eb91d, 0x8addbc9fdf33a257, 0x6c0b3f627ac201fd,
    0xaf0b780e48a21459, 0xe91f3a721e62e77a, 0x868aace51ad5e2b9, 0x62b3ee5a9e6f1e5f,
    0x57474919a2b1e6e1, 0xc44722eec99dfe59, 0xfe289e6fbc4cdd4a, 0x2002dba4868a5811,
    0x60d344f23b88f1d8, 0x5f6910c461be8f13, 0x602cc672047d168e, 0xa0a3de26bd160050,
    0x4570d62788372c05, 0x142b1867aaa5fe9b, 0x9b5dc028259fb27f, 0xc87f615b8ebb5537],
   [0xb218f13b6fc66834, 0xdd8195ca8957762a, 0x61bc85c3132ef924, 0x67cfd5d6685bcae2,
    0x92c0f570fbc255c9, 0xe6220d6e4a251a25, 0x02ce088f874d8496, 0x5aa92f8101235fe2,
    0xfb5aee665ecb6c64, 0x3f9d8ba60234bb22, 0x05b60220c5fb3a0e, 0x6193b67e9d9e67ee,
    0xf15f27e8b68970e7, 0x6ba3e1113a5f4411, 0xd0bc3cfcb076ca52, 0x2dfdb1f597460643,
    0x956d1aa388dbab05, 0xeebafa432b0702da, 0x3220aa43c6e4a032, 0x765c6ec86da3ce54,
    0xf3dd2bbe9d1fce50, 0x8ca72fe5205221a7, 0x1a0e275b49df9be0, 0xf50f8a27c838eeac],
   [0x914099e876e8d230, 0x6997aec228ac2252, 0x2f5c933466e9e37b, 0x195f4174e05827d2,
    0x3174b8f68abae376, 0x7083281ab357b661, 0x7de0ce8656047365, 0xddfe36d6b0e93518,
    0xf4f0c61082fc67d6, 0x2bf8744c5e854620, 0x202664d1a1bfc63b, 0x4cbbb78c359b2233,
    0x7aa39816977e2237, 0xe958dc803bf22275, 0x8a6ebad07ab8c641, 0xf4413b71e4100b81,
    0x5cbdfffdb4474a3f, 0x7d32aecef2dc595b, 0x224f1350a09c9415, 0x2ce590758688eaea,
    0x9aad856874e55da8, 0x7c66bdbe3dffcfcb, 0x988671ca3d6db9ce, 0xc272205fa72dd055]]

/-- `goldilocks.rs:796-1421`, `babybear.rs:796-1421`, `frog.rs:798-1423`: `mds`. -/
def mds64 : List (List Nat) :=
  [[0xabd0a077d40eb130, 0x5037701d962818bd, 0xa9cc9c1b2a840efb, 0xccee74e2cb3ea4cb,
    0x3c078cb0f8c150ee, 0xa980586ab26b3193, 0x6aa4b27c9a427876, 0xb20a7c9cc4d64f31,
    0x0b791c321ef3fbe7, 0x91199170af33655f, 0x05e6cc9564f02f10, 0x1b36f9f30ddadd23,
    0x78763e0620055dfb, 0xa4c3043ceafae0e1, 0x251b1bd462b187c4, 0x63c2fa0ce7b2b615,
    0x8f7eb7a918f8c8b8, 0x39b43e85fc0eb593, 0x9dbf75e36f76bb26, 0xd99234ce8fa2a0b6,
    0xb1cfc278173c4a29, 0xb049246072c07b64, 0x510613dc7ee25b2f, 0xc09de95cb358f842],
   [0x3437b3455b6dd333, 0x341d4cb0fd854739, 0x71f363f934ea6649, 0x2e24a044bbaddf1b,
    0xdc65efd2426abc34, 0xb31b79a3208c0b7a, 0x389a14a3b17f29a6, 0x9cc844d8333d966b,
    0xcc6095ed80972090, 0x42659b17e5ec1a63, 0xc163f50be585f830, 0x1c2cd2ea704f77fc,
    0xb0b13a8ad8d97c08, 0x423d3e37e8ec491e, 0xe7583736b1c9fc5b, 0x3fab89b459456992,
    0xae3d4411935a0874, 0x3c5bb29e2fec9308, 0xc9a5f0c11d766fe7, 0x5b954d9d83a60285,
    0x5e7cee8a0cf2605a, 0x27b63a4075c22f57, 0x196d89b0afa46bce, 0x2123777db2e15b8f],
   [0x34c96e79640e0539, 0x66004b55224b7deb, 0xf826c1855f3f20da, 0xd77955ecdbc1163f,
    0x3d86a61427dd3918, 0x337dad083aebfd9f, 0x83577934130f407f, 0x4a6af6fa8cc25e64,
    0x33803c4f592630db, 0xaa948b32f60a0b99, 0x9c33a5bd0aace338, 0x862997f377759eae,
    0x36547d587b5bc2b3, 0x288a32a127c0e8c9, 0xfdc3e6ec4063ab66, 0x544d4b23ee9d6ac6,
    0x4dac9b969091e4e1, 0x27d92d34f7cf293f, 0x5eb37849ae454026, 0xdf74ab06ae1fdb5f,
    0x86f85b48b2bc2bf0, 0xc8640b9199196471, 0x7ef43c87e578c9a6, 0x262062cc7004bc4f],
   [0xce2869d4643d4304, 0x0738ff64d4ee8f31, 0x570cf3f26df6d3dd, 0x25b42ae34a6670cc,
    0xcf73c9c82c884afc, 0x223e5cdecb2ef2bb, 0x26ebc55e27ab97d2, 0x6f81e38cfdd3e13c,
    0x589b7633dd5051e1, 0xb32da2a7858ff35e, 0x1862fc82229cd3af, 0x58e9519508cc571f,
    0xf189b53fc8290e32, 0xebfb03723842d649, 0x1966a81ea83a0caa, 0x077178e6f0b9f694,
    0x9ad4d6baaea63bb8, 0x9267be45f3fa9952, 0xc06151c511fdb9d4, 0xa359f4e4b318b4e5,
    0x0fa506dbf143938f, 0x6697db5ffb9b3b2b, 0xe73acda5944ec76a, 0xd2d67794aa5e1b64],
   [0x16fae1b2abae0241, 0xe00e191e8ea8e4ed, 0xccc2fa8f3621a893, 0x2ec0f7a48566435b,
    0x5f9afcbcf5590d38, 0x95d576e2628eb3cd, 0xa7ab0cb783af35d4, 0x1f2bc8282874cc85,
    0xd65d0662dfcf9e9b, 0x9e4dd80b10dcd8c6, 0x504ec0a8821a2559, 0x11e9b993be1b7f19,
    0xd2ee20bcc1bec226, 0xf45f747201e2478f, 0x4c09ad982464e748, 0x9e8c7cdf686192e1,
    0x9b815f8277ff1372, 0xb01fc436f79399f5, 0x2dfbd8dc10cdb537, 0x636a7465f0e2247a,
    0xd37eb97026918307, 0x6b0c87b5b167b0a4, 0x2c247890275aa171, 0x291d841e535a3219],
   [0x71676f9fafabf0da, 0x14eb63b11f1c82d0, 0xa7c387d41b4aae9d, 0xcdff0c0b64b42b6f,
    0x23bc31e056c323e0, 0x3bfe78b4d090f0de, 0x8fcf1913195660e8, 0xcbb10a69f08cb5f3,
    0x05bf632df898791d, 0xc1a82976d63fe521, 0x513e878f24b7014e, 0x8931bcd680940bb5,
    0x1485249c806d637d, 0x11ffe7d8ceb9a47f, 0x39133c2dbb69d75c, 0x6947d2934ff3cf16,
    0xb2af3a9e0b487436, 0x542cf4d292777bec, 0x1d3575b7f466c953, 0x57cbf9010020ba23,
    0x6e652d7d662ef677, 0xa408f6e599d5e953, 0xf29d7469ce34e02d, 0xdb7d489c12f76551],
   [0x26e176f2718af7e8, 0x5f5b2b2fd936e0d9, 0x2100ea5ccbbcf831, 0x8027bad387f4b2e6,
    0xae2aac1c7dc1c23a, 0x933a73476d565138, 0x49e57c5154d236a6, 0xcdefaba0db03005b,
    0x63beb63a7c6c9b5c, 0xa5a224160bbc3f2a, 0x889009359ea256fb, 0x2b3d724e957eb86e,
    0x887da66fcdd77480, 0x3645282b86688333, 0x460f5c66a4595c80, 0x881def07e3b286f3,
    0x65f16cff94c958de, 0x6f49bc42d2b63aa1, 0x456235cd87323476, 0x2d7e73de1e5eb585,
    0xdf16c396678fe8ee, 0x49be9de07e4dc05d, 0x555f1d686e9aca18, 0xd0f8586d1445c5f4],
   [0xaff4a16dfa41f5f1, 0x819c72c13e6e5763, 0x0760beb12c8ca9ba, 0xe510bac7d446918c,
    0xf0c00e8bc4ab5d2e, 0x15e6b95b325b399b, 0xf7d6d6a5caca676c, 0x40dc281be3ed891a,
    0x408408a77732385a, 0x0dd7c22773ceb947, 0xca2fcef358e9b3ca, 0x8e4522738cc8ae6a,
    0x661f4ea7ae82df95, 0x7dad9b2ef1e80113, 0xc1beedef68c9a79d, 0xb43705d04c15d05b,
    0x234ed9b3f32da74a, 0x967179641c3265bd, 0x974e55fb0e10dbae, 0x01d50f8bd849a8c0,
    0xe8caff9be30c8fa7, 0x0cd2f75112e7e0cf, 0x6a62e0d0385d818f, 0xd492e6dd84286ece],
   [0x98a509da9d1b816c, 0x267c539765e9dabc, 0xaec7e17641c2e0f3, 0x37bc359f9bfe7f06,
    0xe2667226e058a3d3, 0xc495a8fb435586b5, 0x14b8f8b71f2fcf0a, 0x90c168ab57e747ea,
    0x48ba02b7f7fcb596, 0x8750cd2ffe3e066c, 0xdc8848e2b290321f, 0x7dca1d5df7434030,
    0x8c6dc7bffa106788, 0x2548da39c45773fc, 0x14eb7899a38d3a32, 0xff41809308ebd16c,
    0xf0b8feb07bc4354c, 0x87024a3dd2ba54d3, 0x9dd320459daa7735, 0x043788947dc50309,
    0xfeca47841194489f, 0x7fbc62bd62470005, 0xccbb260e4dd0d209, 0x76625f36a17c1a8d],
   [0x9457b7968cfa52e3, 0x0f03816bf0fef01d, 0x199b579d455e7d0b, 0x54d56296ae710918,
    0x1cc4f884ea9c8d82, 0x622beb302371c75d, 0x5585d4adb825810e, 0x1107fc6458f86b58,
    0xba9b129821253271, 0x3e01dfdd55b40acd, 0x1851d14dcdb2c058, 0x3b86de5f4593837d,
    0x8762e3cd14ecb4cd, 0x23a93a42f9f2105b, 0x6be908065e670265, 0x6b83e722de5079f6,
    0x293e9dbb69df3620, 0xaa553faefd68eb78, 0xa398b6c1651d264e, 0x1b3b1414770ebb2a,
    0xbc647ee55b0e3efb, 0x23759545da9aed96, 0x0234593a91d50ae9, 0x2ac60b39297c6e4a],
   [0xe470a09b5165f82c, 0xb82d705040e73031, 0x3351bc83b0244d64, 0x2ae0af4b4c81eb63,
    0xaec51b96584644f7, 0x68aef3e5b6b284b5, 0xc2d3dca003b81301, 0xa1446e4fab306e8a,
    0x634b14dacc026906, 0x5fc396e3a78b6b1a, 0xb39f70f998de3903, 0x151d43b412ada162,
    0x6ce4b3a909286380, 0x7ca0e6ec75557ae3, 0x00449d78190ca1a8, 0xd1f7542f0b283e03,
    0x689211ce41cc4a7c, 0x088c2f4927ce6122, 0x197ae67b82ca9800, 0xcd5ee08c509b2c38,
    0xe696efaa3e57b6e0, 0x8de9fc8b3b82570f, 0x9e965d44f967db34, 0xa87dda20853ab81b],
   [0x1a05546cd7ff5dc3, 0xfeb37e3b66d6439b, 0x36c3b58a82bfd67a, 0x8afeee5cc17595da,
    0xc2058c6c52cdd905, 0x80390a27176f7345, 0x9c77827b953296d3, 0x3f83bdca2c860999,
    0x7208576056c8aa3f, 0xa4c31cc9bb665b49, 0xc668d6898c93ed8d, 0x5a836ea5e85b71b9,
    0xa12dcb523bda3d51, 0x220fed161f5b0498, 0x70fa235fe69a0593, 0x8ea7097b6a23e839,
    0x73fda9ddcd8f3b56, 0x9b55fed64c19b193, 0xadd612d80adccfaf, 0x2ba5f3e1132c8a8b,
    0x9515fd4136ca0f59, 0x6092a2e8560031e1, 0xdebca51d9e7e489d, 0x74a55f846e0c8d7d],
   [0x9159c384f4de58e5, 0xeaf299209fcd1518, 0x6c4364cbb46cfc13, 0xe7cc82667e18838a,
    0x2a6a3dedca39b211, 0x05022ef5cc9d93ec, 0x4eef5d9865b8bd01, 0x7be3e9c64080760d,
    0x0c156b42f2629136, 0xa3f052e53d4ebda5, 0x875b8455789fa496, 0xf936f6638b9df330,
    0xd5e81e3ec8bbcea2, 0x2471eebd84ceaf99, 0x4849ac0e3735481a, 0xe125b50f31e4f133,
    0xeaba7f3bbe51ce7e, 0x3c6fa7b6d1b75541, 0x7e39d4be8317dc17, 0xc9b2c9c22c116b94,
    0x16653e026bd1a2c3, 0x21edc93786158789, 0x3a28bbef607ae6a9, 0x721bc9b50e18320e],
   [0x8a003172ed31075b, 0x2b543ff33a481e8a, 0xeb71b400267c5d33, 0x71e6f7daab216e68,
    0xe9ee1a6d478aea47, 0x3f03ea3932de08b3, 0x5fe91e49e67408e7, 0x079aa05156d2004c,
    0x4b3da743548f74f8, 0x85ce771dbdccb2a2, 0x2bd1e46d78af567c, 0xf394ecb66d84c04d,
    0xdad1a6f49d0aebdf, 0xfdda8f614c7e7094, 0x70836a8489576908, 0x82bed35c5c37c0a8,
    0xebe0ffb46a42d647, 0xa7b572335b8a8411, 0x9fd7c1516be6e8f0, 0x3701adf0e1d4505a,
    0x6116337205db745c, 0x49b6771fb70c87bf, 0xa735887761aa2679, 0xe7558080dfd4507e],
   [0x84bda650396c7240, 0x504dd1d952051a1d, 0x961daea972d9e317, 0xff513958c6054dab,
    0xb02dd02d9791d2fa, 0x6347aac85f00f6ef, 0x7682e5b0522ca812, 0xe8214811fc8bf168,
    0x941b1db929f0640d, 0x1bf8a67d43870bef, 0x8c90a3ae0fe8e810, 0x354a0fb68a238698,
    0x176f0d4eacefad2d, 0x5fcba813b2b51f47, 0xc101c62458ad4b2a, 0x7187f693398c1dec,
    0x11e760e7a29597e1, 0x738be0b5c8c3fbcc, 0xb78da909ee6d4b73, 0x3c5a711b585476e5,
    0x99a938d867bb79c6, 0xb8c4cc5cfe7d19c0, 0x746de9b754f00380, 0x5f66cfb3fb8f9629],
   [0x79def1f52c64974b, 0x96616a3f197a43df, 0x9e1d47accba483de, 0xff0d452165c0cf28,
    0xaea40f91c6801990, 0xfa9a08297458b1e5, 0x998e38405197b425, 0xfbe49b3ed512735c,
    0xad79764fa64b4194, 0x425d9768b92535a1, 0x91f93ed07a483f14, 0x1e16c761f2c8d3f6,
    0xe4438296f09bba42, 0x50ee9b59e7d7ed04, 0x29288a6c1f2efb7b, 0xefafd17084eb4e84,
    0x64ffd1773cfdae31, 0x9085a743da96aeb4, 0xa75682c645f7510b, 0x60d8d6c56847b087,
    0xfab3cf69d1f1d90d, 0xfb3f8ba8eea85501, 0xcf4364d29de3ec50, 0xdf01277ef261061d],
   [0x1eb48109d6091d64, 0x1ef756c07a521f5c, 0x3971f08f8b9f205d, 0xdc758708ceefae54,
    0xda331a04cfb2bcb0, 0xdcf33c8627c3e537, 0x7c89aff82cf39d40, 0xed049c0148a6ea60,
    0x466cfe619e4f56e2, 0x17b36fe00215b615, 0x0e83a0fe53498209, 0xdad84911f7234194,
    0xfe34bc57fa30f955, 0x0a3ec20c3cc0bbe6, 0x24a0a742c8c80197, 0xddfc6877763f4886,
    0x18ad64d27c9c6145, 0xddd20e9bceea3a3c, 0xee42b7a223853a3e, 0xefa4b520dc22f615,
    0x758a560c4a193111, 0x5184c3ecf20323e9, 0x105b1057045cf152, 0x859f11ed218b0349],
   [0x8d91da397d3fbfe0, 0xbbdcf72e0f0f6d1b, 0x0485bbcc74cc28fd, 0xf9ece4895ff18aeb,
    0xb3741b77f4dd20e8, 0x2f6f7c8da2917b74, 0x4c4467287d348bb7, 0xcd8c0d0ad7eeeeae,
    0xbee11c9f8f3c08cf, 0x31c0ced527f4fdab, 0x4c58c0360dd3ae9a, 0x57d3d2dd1542b321,
    0x585c5bed525c6013, 0x9838d8e0a2a50f6f, 0x5fbcf5c6630d3465, 0x9e457ff0afd055ea,
    0xa53b2d3acdf27a35, 0x05094e16b98e324d, 0x27930629177ada58, 0x082acfde855af052,
    0xfb96d0dc5d4ac20c, 0xa414f249b0a2ba43, 0xaf4b0a90638309bc, 0x01f59d3ced27d58c],
   [0xc12f620eb3a6f462, 0x36da68b5e012f93d, 0xdb3dd64b800bc603, 0xbc783c1541368473,
    0x6e3fb5a3cab07c5d, 0x4b1cf67bdbd38ff4, 0x9effb0f79db8f7a6, 0xbcd110556622de90,
    0xf28de535a52954bb, 0x49d66d89b94ea5f3, 0x7825b6dff4860add, 0xd245b59855b5af38,
    0xa2079c2a324a6fab, 0xcfa747315e4a4a38, 0x977fb7d2606142a9, 0x98f430207246e4a9,
    0x7070801ecc629b9a, 0x290cc7028448a7fd, 0xe838d939186ee030, 0xfd40d2dfaaebcfce,
    0x1cfca1ac0b136b59, 0x4181083fab7d95db, 0x4d76f5982deab6e2, 0xb3f6fc4c99374128],
   [0x7a4141eaf5c51c7e, 0x2826632381ed1f9f, 0x241f02dfefb67d7f, 0xebfc4e69ad7b180e,
    0x238c27a5b2f13f7b, 0x02bfd512bfc4bf1c, 0xedcb3d4875f53d71, 0x07b79a5c34615310,
    0x68e2c9928d97f1ce, 0x333ac28123180366, 0xaee0d5a14bf8fc4e, 0x78a7ceb1e392b69e,
    0xadb83d3bdf7db893, 0x5470836d2164761d, 0x35f933bb6d8915fa, 0xebf14c43af523c96,
    0x14cd027c7936cb89, 0x0854207ffa999052, 0xad2d80f31905fd55, 0xd33362877a565a8c,
    0x7ad984f676fd7371, 0x13f332ab1f0b6058, 0xb7bf38ca8f22bebf, 0xe4001f998cd776aa],
   [0x0774dffba585ed97, 0x93ea95382c972724, 0x76738c72c992a2b0, 0x632063cecd2c0bec,
    0xe94da3c71cf58492, 0xe2e7c3c27f7e6651, 0xad8c08808179f220, 0x219e16904ee24240,
    0x558ff10562373a39, 0x820011dca44282d4, 0xc1a72d7135797fa0, 0x392a205036550f9e,
    0xe7543b287d77b04e, 0x767758fce1228507, 0x2ca666fa31d86282, 0x842332303153cc1d,
    0xe2b440a172184b97, 0xc1a6a8377007ddaf, 0xc20730caae5d292b, 0xb015fbe7f6706436,
    0x4183b9884ff44869, 0xd7624bb1d77053ba, 0x0c2f13ff3a7ee34e, 0x75d3758a031ef550],
   [0x3e8a6a77daad4405, 0xe9393d3c1ba7314d, 0x6ee99019ce2d77b6, 0xe40b3e9372407798,
    0x86332369863c43bd, 0x7f2452d9761c1e97, 0x961795c0b4fd8870, 0x6aa5d6f0399dc0d6,
    0x90f3a8cd1062a4ae, 0xcb30fb6da6bfdd13, 0xe61b009b014a6600, 0x4e5a16e60089fe00,
    0xc6ea8046681fbf8a, 0x0ac7a3f2bc49e1e1, 0xb26f3b435fb8e214, 0x12a85c5924d2e68e,
    0x4882cdf2d7ea8d39, 0xec36f85a962c1cfb, 0x9acae0126b50f270, 0x929eee51f35edb15,
    0x4dc3c130352d7dec, 0xd313ef94994eb130, 0x51cbf1e1afa65785, 0x3e286758dea37884],
   [0xdb7a99f28622ec94, 0x32f2b1dd76cab76d, 0x16c3a308605efbc9, 0x136d21f9564495af,
    0x9e4df892cf57ada6, 0x7fb4f4a2bc91d33e, 0x369d1a58ed795027, 0x50367191920df3de,
    0x050243f7aba277d1, 0x1443d6a088651896, 0x86d37e91913682bf, 0x819a34c068289faf,
    0x46161c875b36df71, 0xf0350f7b9e550240, 0xc7857a164d346685, 0xf84ca04cec984354,
    0xde0618a5c3fb4642, 0x96ab14e10e1f76a0, 0xa6e5616958b5e64a, 0xe923e50e5cd1b6c6,
    0x40833af01785e494, 0x3bec17e1504b5c48, 0x956cab0212475387, 0xb9aa04d5832fe129],
   [0xd42d672cf1fc07da, 0x0061aa458f99db9b, 0x6e5bcf2ba9de46ef, 0x3173d383888c00c9,
    0x2401844fda7df11a, 0x0957679843a552a7, 0x9fde574e8540fc9a, 0x831f144f95348a2d,
    0xa3c1ca3f0395cb6a, 0xb1d01a12bf96ea22, 0x6b71bc98f1a8b5b8, 0x0e0984668385e189,
    0x5f2605f4bb6b5e2e, 0x6e9690afdcb2fdf5, 0x9f2b546fadd9e364, 0xbfcf301c3124e3ce,
    0xd6d7663bc73004ef, 0x46545a07dd39508d, 0xc25e13694c3d81f0, 0x5313b19405f75440,
    0xd80bdc78e88d1ca6, 0xbf6faf1a66bd1155, 0x28bda7bd9134fb48, 0x66f2fdda42f45b55]]

/-- `stark.rs:16-1018`: `ark`. -/
def arkStark : List (List Nat) :=
  [[2950795762459345168613727575620414179244544320470208355568817838579231751791,
    1587446564224215276866294500450702039420286416111469274423465069420553242820,
    1645965921169490687904413452218868659025437693527479459426157555728339600137],
   [2782373324549879794752287702905278018819686065818504085638398966973694145741,
    3409172630025222641379726933524480516420204828329395644967085131392375707302,
    2379053116496905638239090788901387719228422033660130943198035907032739387135],
   [2570819397480941104144008784293466051718826502582588529995520356691856497111,
    3546220846133880637977653625763703334841539452343273304410918449202580719746,
    2720682389492889709700489490056111332164748138023159726590726667539759963454],
   [1899653471897224903834726250400246354200311275092866725547887381599836519005,
    2369443697923857319844855392163763375394720104106200469525915896159690979559,
    2354174693689535854311272135513626412848402744119855553970180659094265527996],
   [2404084503073127963385083467393598147276436640877011103379112521338973185443,
    950320777137731763811524327595514151340412860090489448295239456547370725376,
    2121140748740143694053732746913428481442990369183417228688865837805149503386],
   [2372065044800422557577242066480215868569521938346032514014152523102053709709,
    2618497439310693947058545060953893433487994458443568169824149550389484489896,
    3518297267402065742048564133910509847197496119850246255805075095266319996916],
   [340529752683340505065238931581518232901634742162506851191464448040657139775,
    1954876811294863748406056845662382214841467408616109501720437541211031966538,
    813813157354633930267029888722341725864333883175521358739311868164460385261],
   [71901595776070443337150458310956362034911936706490730914901986556638720031,
    2789761472166115462625363403490399263810962093264318361008954888847594113421,
    2628791615374802560074754031104384456692791616314774034906110098358135152410],
   [3617032588734559635167557152518265808024917503198278888820567553943986939719,
    2624012360209966117322788103333497793082705816015202046036057821340914061980,
    149101987103211771991327927827692640556911620408176100290586418839323044234],
   [1039927963829140138166373450440320262590862908847727961488297105916489431045,
    2213946951050724449162431068646025833746639391992751674082854766704900195669,
    2792724903541814965769131737117981991997031078369482697195201969174353468597],
   [3212031629728871219804596347439383805499808476303618848198208101593976279441,
    3343514080098703935339621028041191631325798327656683100151836206557453199613,
    614054702436541219556958850933730254992710988573177298270089989048553060199],
   [148148081026449726283933484730968827750202042869875329032965774667206931170,
    1158283532103191908366672518396366136968613180867652172211392033571980848414,
    1032400527342371389481069504520755916075559110755235773196747439146396688513],
   [806900704622005851310078578853499250941978435851598088619290797134710613736,
    462498083559902778091095573017508352472262817904991134671058825705968404510,
    1003580119810278869589347418043095667699674425582646347949349245557449452503],
   [619074932220101074089137133998298830285661916867732916607601635248249357793,
    2635090520059500019661864086615522409798872905401305311748231832709078452746,
    978252636251682252755279071140187792306115352460774007308726210405257135181],
   [1766912167973123409669091967764158892111310474906691336473559256218048677083,
    1663265127259512472182980890707014969235283233442916350121860684522654120381,
    3532407621206959585000336211742670185380751515636605428496206887841428074250],
   [2507023127157093845256722098502856938353143387711652912931112668310034975446,
    3321152907858462102434883844787153373036767230808678981306827073335525034593,
    3039253036806065280643845548147711477270022154459620569428286684179698125661],
   [103480338868480851881924519768416587261556021758163719199282794248762465380,
    2394049781357087698434751577708655768465803975478348134669006211289636928495,
    2660531560345476340796109810821127229446538730404600368347902087220064379579],
   [3603166934034556203649050570865466556260359798872408576857928196141785055563,
    1553799760191949768532188139643704561532896296986025007089826672890485412324,
    2744284717053657689091306578463476341218866418732695211367062598446038965164],
   [320745764922149897598257794663594419839885234101078803811049904310835548856,
    979382242100682161589753881721708883681034024104145498709287731138044566302,
    1860426855810549882740147175136418997351054138609396651615467358416651354991],
   [336173081054369235994909356892506146234495707857220254489443629387613956145,
    1632470326779699229772327605759783482411227247311431865655466227711078175883,
    921958250077481394074960433988881176409497663777043304881055317463712938502],
   [3034358982193370602048539901033542101022185309652879937418114324899281842797,
    25626282149517463867572353922222474817434101087272320606729439087234878607,
    3002662261401575565838149305485737102400501329139562227180277188790091853682],
   [2939684373453383817196521641512509179310654199629514917426341354023324109367,
    1076484609897998179434851570277297233169621096172424141759873688902355505136,
    2575095284833160494841112025725243274091830284746697961080467506739203605049],
   [3565075264617591783581665711620369529657840830498005563542124551465195621851,
    2197016502533303822395077038351174326125210255869204501838837289716363437993,
    331415322883530754594261416546036195982886300052707474899691116664327869405],
   [1935011233711290003793244296594669823169522055520303479680359990463281661839,
    3495901467168087413996941216661589517270845976538454329511167073314577412322,
    954195417117133246453562983448451025087661597543338750600301835944144520375],
   [1271840477709992894995746871435810599280944810893784031132923384456797925777,
    2565310762274337662754531859505158700827688964841878141121196528015826671847,
    3365022288251637014588279139038152521653896670895105540140002607272936852513],
   [1660592021628965529963974299647026602622092163312666588591285654477111176051,
    970104372286014048279296575474974982288801187216974504035759997141059513421,
    2617024574317953753849168721871770134225690844968986289121504184985993971227],
   [999899815343607746071464113462778273556695659506865124478430189024755832262,
    2228536129413411161615629030408828764980855956560026807518714080003644769896,
    2701953891198001564547196795777701119629537795442025393867364730330476403227],
   [837078355588159388741598313782044128527494922918203556465116291436461597853,
    2121749601840466143704862369657561429793951309962582099604848281796392359214,
    771812260179247428733132708063116523892339056677915387749121983038690154755],
   [3317336423132806446086732225036532603224267214833263122557471741829060578219,
    481570067997721834712647566896657604857788523050900222145547508314620762046,
    242195042559343964206291740270858862066153636168162642380846129622127460192],
   [2855462178889999218204481481614105202770810647859867354506557827319138379686,
    3525521107148375040131784770413887305850308357895464453970651672160034885202,
    1320839531502392535964065058804908871811967681250362364246430459003920305799],
   [2514191518588387125173345107242226637171897291221681115249521904869763202419,
    2798335750958827619666318316247381695117827718387653874070218127140615157902,
    2808467767967035643407948058486565877867906577474361783201337540214875566395],
   [3551834385992706206273955480294669176699286104229279436819137165202231595747,
    1219439673853113792340300173186247996249367102884530407862469123523013083971,
    761519904537984520554247997444508040636526566551719396202550009393012691157],
   [3355402549169351700500518865338783382387571349497391475317206324155237401353,
    199541098009731541347317515995192175813554789571447733944970283654592727138,
    192100490643078165121235261796864975568292640203635147901612231594408079071],
   [1187019357602953326192019968809486933768550466167033084944727938441427050581,
    189525349641911362389041124808934468936759383310282010671081989585219065700,
    2831653363992091308880573627558515686245403755586311978724025292003353336665],
   [2052859812632218952608271535089179639890275494426396974475479657192657094698,
    1670756178709659908159049531058853320846231785448204274277900022176591811072,
    3538757242013734574731807289786598937548399719866320954894004830207085723125],
   [710549042741321081781917034337800036872214466705318638023070812391485261299,
    2345013122330545298606028187653996682275206910242635100920038943391319595180,
    3528369671971445493932880023233332035122954362711876290904323783426765912206],
   [1167120829038120978297497195837406760848728897181138760506162680655977700764,
    3073243357129146594530765548901087443775563058893907738967898816092270628884,
    378514724418106317738164464176041649567501099164061863402473942795977719726],
   [333391138410406330127594722511180398159664250722328578952158227406762627796,
    1727570175639917398410201375510924114487348765559913502662122372848626931905,
    968312190621809249603425066974405725769739606059422769908547372904403793174],
   [360659316299446405855194688051178331671817370423873014757323462844775818348,
    1386580151907705298970465943238806620109618995410132218037375811184684929291,
    3604888328937389309031638299660239238400230206645344173700074923133890528967],
   [2496185632263372962152518155651824899299616724241852816983268163379540137546,
    486538168871046887467737983064272608432052269868418721234810979756540672990,
    1558415498960552213241704009433360128041672577274390114589014204605400783336],
   [3512058327686147326577190314835092911156317204978509183234511559551181053926,
    2235429387083113882635494090887463486491842634403047716936833563914243946191,
    1290896777143878193192832813769470418518651727840187056683408155503813799882],
   [1143310336918357319571079551779316654556781203013096026972411429993634080835,
    3235435208525081966062419599803346573407862428113723170955762956243193422118,
    1293239921425673430660897025143433077974838969258268884994339615096356996604],
   [236252269127612784685426260840574970698541177557674806964960352572864382971,
    1733907592497266237374827232200506798207318263912423249709509725341212026275,
    302004309771755665128395814807589350526779835595021835389022325987048089868],
   [3018926838139221755384801385583867283206879023218491758435446265703006270945,
    39701437664873825906031098349904330565195980985885489447836580931425171297,
    908381723021746969965674308809436059628307487140174335882627549095646509778],
   [219062858908229855064136253265968615354041842047384625689776811853821594358,
    1283129863776453589317845316917890202859466483456216900835390291449830275503,
    418512623547417594896140369190919231877873410935689672661226540908900544012],
   [1792181590047131972851015200157890246436013346535432437041535789841136268632,
    370546432987510607338044736824316856592558876687225326692366316978098770516,
    3323437805230586112013581113386626899534419826098235300155664022709435756946],
   [910076621742039763058481476739499965761942516177975130656340375573185415877,
    1762188042455633427137702520675816545396284185254002959309669405982213803405,
    2186362253913140345102191078329764107619534641234549431429008219905315900520],
   [2230647725927681765419218738218528849146504088716182944327179019215826045083,
    1069243907556644434301190076451112491469636357133398376850435321160857761825,
    2695241469149243992683268025359863087303400907336026926662328156934068747593],
   [1361519681544413849831669554199151294308350560528931040264950307931824877035,
    1339116632207878730171031743761550901312154740800549632983325427035029084904,
    790593524918851401449292693473498591068920069246127392274811084156907468875],
   [2723400368331924254840192318398326090089058735091724263333980290765736363637,
    3457180265095920471443772463283225391927927225993685928066766687141729456030,
    1483675376954327086153452545475557749815683871577400883707749788555424847954],
   [2926303836265506736227240325795090239680154099205721426928300056982414025239,
    543969119775473768170832347411484329362572550684421616624136244239799475526,
    237401230683847084256617415614300816373730178313253487575312839074042461932],
   [844568412840391587862072008674263874021460074878949862892685736454654414423,
    151922054871708336050647150237534498235916969120198637893731715254687336644,
    1299332034710622815055321547569101119597030148120309411086203580212105652312],
   [487046922649899823989594814663418784068895385009696501386459462815688122993,
    1104883249092599185744249485896585912845784382683240114120846423960548576851,
    1458388705536282069567179348797334876446380557083422364875248475157495514484],
   [850248109622750774031817200193861444623975329881731864752464222442574976566,
    2885843173858536690032695698009109793537724845140477446409245651176355435722,
    3027068551635372249579348422266406787688980506275086097330568993357835463816],
   [3231892723647447539926175383213338123506134054432701323145045438168976970994,
    1719080830641935421242626784132692936776388194122314954558418655725251172826,
    1172253756541066126131022537343350498482225068791630219494878195815226839450],
   [1619232269633026603732619978083169293258272967781186544174521481891163985093,
    3495680684841853175973173610562400042003100419811771341346135531754869014567,
    1576161515913099892951745452471618612307857113799539794680346855318958552758],
   [2618326122974253423403350731396350223238201817594761152626832144510903048529,
    2696245132758436974032479782852265185094623165224532063951287925001108567649,
    930116505665110070247395429730201844026054810856263733273443066419816003444],
   [2786389174502246248523918824488629229455088716707062764363111940462137404076,
    1555260846425735320214671887347115247546042526197895180675436886484523605116,
    2306241912153325247392671742757902161446877415586158295423293240351799505917],
   [411529621724849932999694270803131456243889635467661223241617477462914950626,
    1542495485262286701469125140275904136434075186064076910329015697714211835205,
    1853045663799041100600825096887578544265580718909350942241802897995488264551],
   [2963055259497271220202739837493041799968576111953080503132045092194513937286,
    2303806870349915764285872605046527036748108533406243381676768310692344456050,
    2622104986201990620910286730213140904984256464479840856728424375142929278875],
   [2369987021925266811581727383184031736927816625797282287927222602539037105864,
    285070227712021899602056480426671736057274017903028992288878116056674401781,
    3034087076179360957800568733595959058628497428787907887933697691951454610691],
   [469095854351700119980323115747590868855368701825706298740201488006320881056,
    360001976264385426746283365024817520563236378289230404095383746911725100012,
    3438709327109021347267562000879503009590697221730578667498351600602230296178],
   [63573904800572228121671659287593650438456772568903228287754075619928214969,
    3470881855042989871434874691030920672110111605547839662680968354703074556970,
    724559311507950497340993415408274803001166693839947519425501269424891465492],
   [880409284677518997550768549487344416321062350742831373397603704465823658986,
    6876255662475867703077362872097208259197756317287339941435193538565586230,
    2701916445133770775447884812906226786217969545216086200932273680400909154638],
   [425152119158711585559310064242720816611629181537672850898056934507216982586,
    1475552998258917706756737045704649573088377604240716286977690565239187213744,
    2413772448122400684309006716414417978370152271397082147158000439863002593561],
   [392160855822256520519339260245328807036619920858503984710539815951012864164,
    1075036996503791536261050742318169965707018400307026402939804424927087093987,
    2176439430328703902070742432016450246365760303014562857296722712989275658921],
   [1413865976587623331051814207977382826721471106513581745229680113383908569693,
    4879283427490523253696177116563427032332223531862961281430108575019551814,
    3392583297537374046875199552977614390492290683707960975137418536812266544902],
   [3600854486849487646325182927019642276644093512133907046667282144129939150983,
    2779924664161372134024229593301361846129279572186444474616319283535189797834,
    2722699960903170449291146429799738181514821447014433304730310678334403972040],
   [819109815049226540285781191874507704729062681836086010078910930707209464699,
    3046121243742768013822760785918001632929744274211027071381357122228091333823,
    1339019590803056172509793134119156250729668216522001157582155155947567682278],
   [1933279639657506214789316403763326578443023901555983256955812717638093967201,
    2138221547112520744699126051903811860205771600821672121643894708182292213541,
    2694713515543641924097704224170357995809887124438248292930846280951601597065],
   [2471734202930133750093618989223585244499567111661178960753938272334153710615,
    504903761112092757611047718215309856203214372330635774577409639907729993533,
    1943979703748281357156510253941035712048221353507135074336243405478613241290],
   [684525210957572142559049112233609445802004614280157992196913315652663518936,
    1705585400798782397786453706717059483604368413512485532079242223503960814508,
    192429517716023021556170942988476050278432319516032402725586427701913624665],
   [1586493702243128040549584165333371192888583026298039652930372758731750166765,
    686072673323546915014972146032384917012218151266600268450347114036285993377,
    3464340397998075738891129996710075228740496767934137465519455338004332839215],
   [2805249176617071054530589390406083958753103601524808155663551392362371834663,
    667746464250968521164727418691487653339733392025160477655836902744186489526,
    1131527712905109997177270289411406385352032457456054589588342450404257139778],
   [1908969485750011212309284349900149072003218505891252313183123635318886241171,
    1025257076985551890132050019084873267454083056307650830147063480409707787695,
    2153175291918371429502545470578981828372846236838301412119329786849737957977],
   [3410257749736714576487217882785226905621212230027780855361670645857085424384,
    3442969106887588154491488961893254739289120695377621434680934888062399029952,
    3029953900235731770255937704976720759948880815387104275525268727341390470237],
   [85453456084781138713939104192561924536933417707871501802199311333127894466,
    2730629666577257820220329078741301754580009106438115341296453318350676425129,
    178242450661072967256438102630920745430303027840919213764087927763335940415],
   [2844589222514708695700541363167856718216388819406388706818431442998498677557,
    3547876269219141094308889387292091231377253967587961309624916269569559952944,
    2525005406762984211707203144785482908331876505006839217175334833739957826850],
   [3096397013555211396701910432830904669391580557191845136003938801598654871345,
    574424067119200181933992948252007230348512600107123873197603373898923821490,
    1714030696055067278349157346067719307863507310709155690164546226450579547098],
   [2339895272202694698739231405357972261413383527237194045718815176814132612501,
    3562501318971895161271663840954705079797767042115717360959659475564651685069,
    69069358687197963617161747606993436483967992689488259107924379545671193749],
   [2614502738369008850475068874731531583863538486212691941619835266611116051561,
    655247349763023251625727726218660142895322325659927266813592114640858573566,
    2305235672527595714255517865498269719545193172975330668070873705108690670678],
   [926416070297755413261159098243058134401665060349723804040714357642180531931,
    866523735635840246543516964237513287099659681479228450791071595433217821460,
    2284334068466681424919271582037156124891004191915573957556691163266198707693],
   [1812588309302477291425732810913354633465435706480768615104211305579383928792,
    2836899808619013605432050476764608707770404125005720004551836441247917488507,
    2989087789022865112405242078196235025698647423649950459911546051695688370523],
   [68056284404189102136488263779598243992465747932368669388126367131855404486,
    505425339250887519581119854377342241317528319745596963584548343662758204398,
    2118963546856545068961709089296976921067035227488975882615462246481055679215],
   [2253872596319969096156004495313034590996995209785432485705134570745135149681,
    1625090409149943603241183848936692198923183279116014478406452426158572703264,
    179139838844452470348634657368199622305888473747024389514258107503778442495],
   [1567067018147735642071130442904093290030432522257811793540290101391210410341,
    2737301854006865242314806979738760349397411136469975337509958305470398783585,
    3002738216460904473515791428798860225499078134627026021350799206894618186256],
   [374029488099466837453096950537275565120689146401077127482884887409712315162,
    973403256517481077805460710540468856199855789930951602150773500862180885363,
    2691967457038172130555117632010860984519926022632800605713473799739632878867],
   [3515906794910381201365530594248181418811879320679684239326734893975752012109,
    148057579455448384062325089530558091463206199724854022070244924642222283388,
    1541588700238272710315890873051237741033408846596322948443180470429851502842],
   [147013865879011936545137344076637170977925826031496203944786839068852795297,
    2630278389304735265620281704608245039972003761509102213752997636382302839857,
    1359048670759642844930007747955701205155822111403150159614453244477853867621],
   [2438984569205812336319229336885480537793786558293523767186829418969842616677,
    2137792255841525507649318539501906353254503076308308692873313199435029594138,
    2262318076430740712267739371170174514379142884859595360065535117601097652755],
   [2792703718581084537295613508201818489836796608902614779596544185252826291584,
    2294173715793292812015960640392421991604150133581218254866878921346561546149,
    2770011224727997178743274791849308200493823127651418989170761007078565678171]]

/-- `stark.rs:1020-1024`: `mds`. -/
def mdsStark : List (List Int) :=
  [[3, 1, 1], [1, -1, 1], [1, 1, -2]]

end Verif.Poseidon
