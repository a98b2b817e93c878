import Verif.Model.Basic
/-!
# Zobrist keys (src/pieces/zobrist.rs)

The table is copied mechanically from the source.
-/

namespace Model

/-- `BOARD_SIZE`: src/pieces/zobrist.rs:3. -/
def BOARD_SIZE : Nat := 19 * 19

/-- `ZOBRIST`: src/pieces/zobrist.rs:5-728, all 722 entries in order. -/
def ZOBRIST : List Nat := [
  0xffed071d11b312ad, 0xecf90189c0cadd3d, 0xe6bdde96d4fa3748, 0x8cf2135fe4787aae, 0xffb23ef4d00c9bec,
  0x18c5201e7df18c5f, 0xef9487b0fc7f0992, 0xe197bb05595adb8c, 0xea02b680b521a6cb, 0xf00ee1a027e5e8da,
  0xf95c8d2f81b73ca4, 0x3bc64da59b3929b6, 0xd6e2d7672e322688, 0x9c42c9e1ee8fc65a, 0x4060968eda5d9da4,
  0xdd40065fc119d289, 0x43c626cccbb9d40b, 0xa1bcdcfe50b37e9f, 0xc47ec9ac4cb29638, 0xb39023319783ca34,
  0x1f2267487a5a13fc, 0xcd73e4b8b2db5401, 0xb99687352b7959f8, 0xea372286793e3c0e, 0x3c9ec41c890d18ae,
  0x1df28abe15e2dd82, 0xd73a4336f787e582, 0xc9364dd2d6132038, 0x1048cbc2b8d4d21f, 0x8e5136e5d028dc78,
  0x90c612a3392d85fe, 0x95ffe360a43ddcb7, 0x04fc0d5307eb6f19, 0xb344786f85f3422d, 0x6079c5ab08e18db0,
  0x6d6831253430f004, 0x4954991a0a8e300d, 0x15adb6ff36554295, 0xe8073013a2ca14fe, 0x2f20c28ee59720ce,
  0xb244382bae2727d6, 0xbd4d49c6d9749636, 0x16e3b800d3e21e9b, 0xdaccc6dff63d5b48, 0x87d24b9bfe684d4a,
  0x438cb64140690869, 0x2a89366f2219d9ec, 0x8ff957ab0b6fb7df, 0xb8620f42dddd18de, 0xa4d9da836d18b346,
  0xca4a3b8d30a0caa1, 0x4c2239cf4a15513d, 0xf046fc64b6a9d8f6, 0xbb642e59fa583f4d, 0x39dd0e095b844988,
  0xbb7a8199c5c422e7, 0x73cfe893dfbca4f5, 0x4c968f1ef86213dd, 0x55f3341777ada681, 0xf580b5628e931e04,
  0xd0c8ba9ab4653bc7, 0x23657699f444fbaa, 0xa94675ac71721304, 0xa936a8fc4be867f7, 0x0dca04d0bb632985,
  0xe079a643598a995d, 0x7e3ca199fa78ff54, 0xa998db24ae5174cd, 0x578baea1345cc13b, 0x4908294d995fe5eb,
  0x135c12959161fc5e, 0xb077124dcf8ece97, 0xdccd310bda1fe0cd, 0x3b2698f2d9543d7e, 0x827d744f4bbc7230,
  0x2de9c046808bb4df, 0x237c93a007cc5e11, 0x7ecbd6e380419770, 0x87f0429b59cac0ae, 0xc324f44e81158223,
  0x5afb560c6e049911, 0x0aaaf45528b52c81, 0x1e2b2b410c025155, 0x3a1619a928d3c684, 0xe61f2d85c97caa87,
  0xa61b4ad58762c148, 0x0807dc2757af83a2, 0x607aa6776638718e, 0x81ea144abd3657cb, 0xee5aee2015191bdc,
  0xc1dbf1ddac51d7fb, 0x7ce7f8387d679207, 0x2f5cec8de68752ae, 0x23731d72d1bbf318, 0x4be7a3b4874bcde7,
  0x804749b94506cfc6, 0x51d747b27b01c0c8, 0xd7e32c23fe5ed7d6, 0x5300ca45f88ac944, 0xc455e69265b0c50b,
  0xd6d8901afebd7ef1, 0x5ebb370a6014f1e7, 0xa74664ba81a28901, 0x5cd5fa7ddfe66618, 0xc9f332ec69819f85,
  0xf63eac4bdc3f3a74, 0x3bbe222291996444, 0xab56c9a259486098, 0x8cf7599cdf4f984b, 0x986a048eb8b5cc4a,
  0x6c89e04fa76208fe, 0xfa7b52143dbd2ba3, 0xcc1f86236ea42540, 0xcad5d6069fded223, 0x30788a532f020ae1,
  0xde5a42448e93caaa, 0x4e1b264a3b482c65, 0xcc621853cf52e9c0, 0xdcba5142cfac23fc, 0x470ec24dc8821e11,
  0x416682d10b6be2aa, 0xc0bf6184919d2ce7, 0x6b382a57d2bc6836, 0xf9d12ef4fb1bea50, 0x23cf63237f4c2c5e,
  0x7edd9723b6bc3f03, 0x51caf7cee79eef2e, 0xa63617289db104eb, 0x7142e75e1fee74f3, 0x1366ebfe66a61f2d,
  0x1bd024255636d78f, 0x4083c5db3ad12d8c, 0x979be485f8e2d87d, 0x27c040b2aac98673, 0x930799065b1f62ce,
  0xffbd1146d482fd32, 0xa30ba7f34d0988fd, 0x6a95e6d24954b8e1, 0x596827fb23cfe1a9, 0x22ebd59d3071c632,
  0xd0bae2993d5d40cb, 0xd63bd5ad7f13e009, 0x7c4912c771a63c31, 0x4e2457938cf214c8, 0xdb31418b2bc24db1,
  0x5df66c2c1e61e8ea, 0xa821d4dd8b89d118, 0x5397fc0a502cf507, 0x2f68d19148373b29, 0xb90df64e732b2db9,
  0x6b958a8aaffff0ae, 0x3e006cb0275141ed, 0x1375a710e2442074, 0xb0b7791426a61689, 0x5815fc6e0bbb66db,
  0x6b8d999a8ab04800, 0x1a68b2eef01e9814, 0xaf6b0c8450bea6ea, 0x66f0489eee437db8, 0x3214d388efb21fe2,
  0x027609292d661096, 0x308ae8e5565a034b, 0xd87ff2074fd392f8, 0x60c58be58132591d, 0x67d2ff4b853936c4,
  0x7db433a6296af8cb, 0xe6b2573dd3402f3e, 0x33b74f38f1f0b064, 0x4d2b9c5db14d8925, 0x90f009787aed69ca,
  0x08fb92315b99e379, 0x97acba8128008418, 0x8e6c783b92c108ad, 0x5193de4ac1dd8078, 0x2f6d2073f6ef307f,
  0xf0e5dc6642400b5a, 0x31b56bdff86d6eeb, 0x28ebb6c9c890234f, 0x80b6639dbda6caac, 0x74f4562b2eb78311,
  0xe53f3fae1091c81e, 0x6110029ffbd42183, 0x6521f91d4e4ae23b, 0x520f0e9a319516ad, 0x3a15c06a9025c76a,
  0x2f74161556c992d2, 0xb5a19d7849db021a, 0x786576a9fee049d4, 0x1f796fa153d84f2f, 0x4cbc80b9db3bc0a8,
  0xc6cf2facac060816, 0x954eb834b43ee58f, 0x1858a3286b2b2f78, 0xad16c1165fcf0f84, 0x7c0e30266c9d9b9b,
  0xcb27b64df359b577, 0x0ea1d846da6c8fcb, 0x065e4fa04a19c562, 0xff9cdc7265ec7f3e, 0xd5e3cfd76b46e3cf,
  0x71c462c21da1fc7c, 0xb03040c559974171, 0x088636bf80c01d23, 0x83e7d5e084010833, 0x0ead9159fec7f6ea,
  0x512be0810e959b92, 0x9459246e0cc9d386, 0xfe8af53e8f589ba1, 0xba7daaf1a35254c0, 0x895b60a44cede4a6,
  0xc293564d52b1ee85, 0xf2268ecec288f896, 0x24cc6fc8e0c59506, 0x8b426a02273d75b8, 0x352a2195c0149caa,
  0xb634b2a3c3881008, 0x0ceb104da8611bdd, 0xbc83e1542ab80c64, 0x88828a98f8162f94, 0x7b1814fe29cddd97,
  0x24fe10f5aa6e44f8, 0x0ba08d627940d923, 0x9d50bdbc4d5545df, 0x79d8637b9fedae72, 0xe011ac1a1b377aea,
  0x6aa489fd562d6de8, 0x49fbb282bb4d6724, 0x4658aae8640b9c0b, 0xe56c99304138a7ed, 0xdd51cb20f430dc38,
  0x03d8a38c3a0960ac, 0x3827c43d460d2a76, 0x2318d42371937ac2, 0xa1f65088ad4e6242, 0x4b9b702180179dd0,
  0xaf84ed6cbe105114, 0xff33944cd9c73770, 0xcd1d0e337348734a, 0x57e53dbe08e61c1d, 0x3e6bc256e4506211,
  0x54e5024b6e299a63, 0xc4212737e2bf31a0, 0x75d9e361f537c0e9, 0x0d5781c02c0f8b9c, 0x9ae79e16c3297b6e,
  0xd8ba892058064fff, 0x196b2e9079f17970, 0x42f6feed4dcb341a, 0xdc8c59aa217c96f1, 0x03a80436c9e9f400,
  0x2b1a5e562e7a07dd, 0xd315bd6a354bb7b3, 0x186340c8a48a5b8d, 0xb1ebc9cb90b10992, 0x8e92a64c62b57713,
  0x00aded7d84d2f728, 0x3d75a2c16b45c3bf, 0xf14c18f0be7599ee, 0x71e72d8b3bc96ee6, 0xe424bd577cdcdd11,
  0x9d7e025c0098e7d7, 0x0ba5b310e57264a6, 0x4b816c07cb776372, 0x4c21ba324d574294, 0x687723d06579cda0,
  0xa1e0e658cd8a078e, 0x0a1ad0876ea8300e, 0xf7202e2aa17572e6, 0xd82038b26e14b518, 0x9ed576f870d23e18,
  0x4158f4a72ba78c25, 0x90e8f131ff1895a1, 0x049f2763078c1eff, 0xb38e5efc0552dc07, 0xed41e58241b68cd1,
  0x98629c74240ddc8a, 0x8fcb5fafe734a05e, 0x33b63d66b31501c9, 0x345d1609913bd9bc, 0x20803c1bd4714207,
  0x69778a52fe30b6c0, 0xb8e4ca7f745a4a7c, 0x9e4c437744a2ce23, 0x54c18d21e5abfd95, 0x7d476b4d0a6e325b,
  0x33cef9269dda5ff6, 0xdff4b46777d53cfa, 0x49a49d5d0e96d1ce, 0x757ecc5547f124a8, 0x7872770d311cade5,
  0xe260d262fa2ce397, 0x66bba71297028e2c, 0xf717ade849bc74b6, 0xad6cf2cf35b20007, 0xa5c121196f6e707e,
  0xd5b214248903b15a, 0xce113c20f0616835, 0xa72fd799f9efa0b7, 0xd9f5e4295c9dc548, 0x1d7da9e720429754,
  0x82bbad545fd2367d, 0x41ff1a9e6bba4308, 0x69a4037c94e4c16d, 0x6c7c589a358bb56e, 0x679129169875a79b,
  0x2392ba2b75a710de, 0x76a0111351ffee93, 0x4d6dedfc023d9e39, 0x0788a89dd3ee2a40, 0xf81d883b5106a3c3,
  0x081a547a09320007, 0x9167531e2178944f, 0xec0dc736e0eec197, 0xa1476d2e03e058d5, 0x25d3f8f416bc6ce2,
  0xcce7f439212e4069, 0x4018907cb452f5ec, 0x7703bfa371908745, 0xcb6b24422f166d0d, 0xf866bc3cddf7eae2,
  0x85929c9f9ed44504, 0x5f74622b3cd43bf1, 0x058772f3980000e5, 0x070b15cc483c42bb, 0x065c34c65476557a,
  0x20437aa23d5f1aa5, 0xb0c1ee0d33ffc42f, 0x9122f4fabf556457, 0xd3b78b0e8fda15dc, 0xb67847c35c99d71f,
  0x4c4196e67ff4318e, 0x54a81377669ce1f1, 0x386250fb4b4782ea, 0x0bc13dbac30ee364, 0xe8609ebba86c984e,
  0x8ced4af99e54ec3f, 0x7fea7248e1a52f74, 0x8ef0295a87a680f4, 0x5466685c09b8bf63, 0x6c217306345a79f6,
  0x82d0271519ba0113, 0xfd005481c1f223f8, 0x0dd8e274ecdfd585, 0x35438a013abed354, 0x48dc4319e2888dd2,
  0xd524169e8e169216, 0x10a4441946235b79, 0xd2b01cce94e2068d, 0xb72a1804993dc1d0, 0xae8077b3b342a818,
  0x3b2d09f18d2de617, 0x424cdf442cea3865, 0x8c6a04e43c3e2ab5, 0xa2ee66fb9ff79aaa, 0x304781a55e40bd56,
  0x1bfdddec890d7f6f, 0x3e832460b996395c, 0x31505d0570add371, 0x1088cfe8f17befa5, 0x77aace5f7b1fdd7c,
  0x1d3fe89b72a0c58a, 0x946664802a9c9239, 0x6930dcf0207993b4, 0x249b5b0c5adad863, 0x82d7090a33185db6,
  0x639ec3782c9d5b9a, 0x0bd98db3cdf19cd9, 0xd671ed7a1f9bc4f8, 0x7cacce8a2da52954, 0xe1706dd47de3b0ef,
  0x43b7ff648e1b7f22, 0x62e3b81ffc151742, 0x7488012f61fa0a3c, 0x01016484bb508d30, 0x0b14e9e5c104cf2c,
  0xe7dbced336a13bd2, 0xb14c2fec7bc22502, 0x0c54de113d949d5b, 0x89e58e620dcd220c, 0x8b7f4c107d6f0d64,
  0x7f00500477d88b2f, 0x42a89245bd696c3e, 0x1fa12f9e4b6b1cd2, 0xe12d31511923c2f9, 0xca666b4a6023f33e,
  0xae4c1743f99766de, 0x42965484dff4cdd9, 0x5b91e675e3ed8dd2, 0x86db900f24c12eb3, 0xcc9349a5b6e00d9b,
  0xf688e8f900dc7ab5, 0xadf85ed4cb4f1eb3, 0x634b32605eb44ff0, 0x9597be1bde75293f, 0xe1f27be73483355d,
  0x0673f9c898bf0bdf, 0x3d8ba2c981211905, 0xcbbea840b141155d, 0xc34a186c4f57156b, 0x4f839232255e3c58,
  0x8fbc6c1cb71ac277, 0x7c3d26c1a2b434a8, 0xf327a6245d13ab74, 0x9c845e9de935c70c, 0x0d81c820b992f3a9,
  0x81f6abd24f6c2897, 0xde46ba0f5ae920d9, 0x5a74eeb502fa9452, 0x4b0e0b030f002d72, 0x448146c107dcb7c7,
  0x7c8b7caf4e8a8130, 0x32ba067d4c675e33, 0x865696767acd61bd, 0xc2d164b5f48675d0, 0xb5eaff929c9b9423,
  0xba900e340eae856c, 0x000d6df1cdbbe9b3, 0x0d77a9d0e9ef6268, 0x561beca9084c4eea, 0x9370d0875d271e2a,
  0x044d5c2bf824ff5a, 0x17745079d924db88, 0x81e16e4d621e07e4, 0xf9098be3cd62e977, 0xf52f34c5729e80a3,
  0xeb8ba0773afd397c, 0xeadc38867c201412, 0xcd8863de90f04970, 0xc96f20621575d542, 0xace572369a69280a,
  0xf0685f0e04e9dbee, 0xbb42e0324a9f6b5d, 0x34d3c9d96f3665f1, 0xb053e90e86499012, 0x103fd02a1654d54d,
  0x7cdd5c3c3bd15adf, 0xe7e92768d7192f63, 0x76df472643260aca, 0xb6fd62814d6d7592, 0xc3f47e986a011669,
  0xe27c7168257f6314, 0x884dc909226ee329, 0xb0774ae1e1ada500, 0x26b05cf019e83a8c, 0xe439a5ce0f381137,
  0x1568f337809d55ed, 0x4bd44b4cc5be85eb, 0xf04f9c0c165c0788, 0xc9d6610ccda678f5, 0x4f9ef2a23315f34d,
  0x7fb4fbd5bcb02081, 0x6b6c861e76824037, 0x6e78c79605614403, 0xeddd2a252971661e, 0xd47b6fc3fa0988c7,
  0xf914d5a96dc4b2d4, 0xc7729e1f25d19f68, 0x5aa111b3cef549ef, 0xd0645054eb43250e, 0x4399e0aa954fcbf2,
  0xea122ea681b68e79, 0xe51dfbba51577e84, 0x0ef1002e8b3b3620, 0xa681b601dfc4dafd, 0xcc65993c384e88a0,
  0x9ed16855f95f1511, 0xedc4685e87265b0a, 0x20bd733c113b7f39, 0xef2799ccec2c292c, 0xb9e8b4dcac9902d4,
  0xf25e96d20e2cb72a, 0x95d215ef7197ee00, 0xc67a87ec9a67c442, 0xafcc624d2b5eda7d, 0xb862cd11d1c8e9a6,
  0xa1b3945705610dae, 0x42b9c16a9778e59f, 0xf9f25fbb0cb86fde, 0x7c11a198ce2597ba, 0x0b0a5ea1e6c91f90,
  0x6f27e5f676496a05, 0xbe1736cbdb0c6dbe, 0x99e12b91c3d3e64a, 0x7cf2b6116f825d28, 0x2a6c2bd09cdf79ea,
  0x1e86487b1c5dd436, 0xf9aa187be182c195, 0x1e28312f48842ef5, 0x610242498676789a, 0x621cd9af9713f853,
  0x3d62faacc8a81ffd, 0x15fa7b8b2cfde2fd, 0xbe8c7ab67455ed8e, 0xb51844411a6a5824, 0xf5e9079a26bca82d,
  0xc86c269210507418, 0x4f56e0c8eb907c7e, 0x285dba4b69f40460, 0xb87e641acf13e25b, 0x200c1877831edcea,
  0x7102296e52fd9613, 0x1935b38ef8b51781, 0xcf9027577ffad274, 0xde15b04cb305f91d, 0x399a7973d47553e1,
  0x763345af66e2fd7e, 0xebab4dd3ac811c61, 0x243ab1e863dc0b2c, 0x5d3a5f30dbfb621a, 0x22eb7c4eebf83fee,
  0x1b66835415b802f0, 0x53aa8b13b032a775, 0xea2982af25c1cbdb, 0x0825f4962f230194, 0x1686fff282370f0e,
  0x9d259d07a364ffb3, 0xbd89347e8e97e58f, 0x59d106550501df96, 0x6744c8a73bf3b7a2, 0x1b1e35f5da224153,
  0xea69445d528b7f0d, 0x072e67a9c3540d9c, 0xac59e218b262079a, 0x541139418da94bbc, 0x2e9324fd396f8366,
  0xab9e0d88d7e4710a, 0x22ce2b42660715a9, 0x0b1ac2713a42e863, 0xb7c8fb783fff8743, 0xf4c3c680e41e6930,
  0xc16a7c67ad28321b, 0x09491e19b4cc4597, 0xcd79ef5a1f7827e4, 0x210acd8c2b6d3cb7, 0x34ad02198d74bb46,
  0x86f0d870cd0836b2, 0x69459ffa0a73547f, 0x55af3b1e73c0e8c3, 0xfb4c6855ffafff2e, 0x39ad394a5781c5af,
  0x3be6b3e487c1f01b, 0x8bc3d4bdc15b7a84, 0xf6b6cd8fe0d1ad84, 0x1a7119a8bed999c8, 0x8bcc72854ab4658a,
  0x33e17ae3792a32fd, 0x828a51465e1b2964, 0x50ae83f0105ff6c9, 0x95e8fdc8d027e0a1, 0xf6aac7e825f29cfd,
  0x17ff57dd36371593, 0xaa87723774045167, 0xdc20c4e9176d0ad9, 0x90de641300712f0b, 0x6ccab28e7e8a9ef3,
  0x67b385adef5d8ad1, 0x27423642427016ce, 0xbdf08f06ac8aa8a1, 0xa0e7f50a887db11c, 0xbe0bcc02ceffbf85,
  0x4325fe337cfa9de2, 0xe2731f30eb795e21, 0x83fa353e52be142e, 0x07c6b37be3ee5cdb, 0xaeb4661871ed15c6,
  0xd6939572c451e319, 0x5cafd2da868141c5, 0x60ff7646650a8352, 0x65e80c4ed9ae1f73, 0xefa78c71cab9dbe6,
  0x83b4213a320ce6e7, 0xd28c105722ff0820, 0x40d6da1ea58c7ef4, 0x25fa3e1f5ba9ab6e, 0x1877ef8772d57617,
  0xdee8356ca9c583d2, 0xec16bd521367f479, 0x795acb0968ba0ac4, 0xb6036a3d9e86be84, 0x52ac27047fb89b73,
  0xf1de7793fce07e3e, 0x38ba449607c0e151, 0xb7e2714f8b423fa9, 0xaacf394d24991645, 0x2092d2d4b7010f5c,
  0xc4483d45c2fb4bab, 0xa6314753fe64e71a, 0x640f0fca920aaef9, 0x7b9fd8506ea5a627, 0xe19209e307feaf66,
  0xd70eff427e932fe1, 0xd83d465a6e9bb5a9, 0x8dd4abfb17de75e0, 0x62f9f7bcdb8e597f, 0xf492a3d3eecf2432,
  0x12bcd7102edec9ec, 0x95d5c63094c2f23f, 0xf4ac5ee81afd2fe6, 0x5b940a955dab742d, 0x139b83e868bf056d,
  0x30e095e8221d350c, 0x126d1f66cdd2263e, 0x249e399e3cd82f42, 0x0fd089d1aa9390a1, 0xb7889a6effb23a68,
  0xfd4ae81195f65486, 0x238addf60e80915c, 0x4a4f4e49981cd2b9, 0x3006a8622b92b49d, 0xf8b77742eb44cef3,
  0x14f07087b7df0be3, 0x56cec0c144a0e6ba, 0x015f1cce86426f62, 0x51a66e4850824d1f, 0x551be1706b72f90f,
  0xc46775d3b80d3604, 0x77b0799fa151a361, 0xd8bf086fec29971a, 0x3047c9159683f619, 0xa4ac08cb5defc403,
  0xc86f1d5dc63f145f, 0x5dd1f54dd2ce9244, 0xc969f9913b7fff8d, 0x3af8168339c4126d, 0xac4939c3026c3d26,
  0xa7ba98513b0d0ed7, 0xe321f27711414a4d, 0xf17ac259505a1058, 0x8a2e6f7b6e962899, 0xdb5f4fc550bf2b40,
  0x086e713192e6a647, 0x5cf76cf350c0496e, 0x8aad0b42766ba4d3, 0x0813da4363580882, 0xe13a6434148a9377,
  0x1975e86313613856, 0x688e3633a9abf713, 0xa8b29cec3a72f756, 0xbfbb4a92b270da4b, 0x8e2e276495776bcd,
  0xf9853448b6733127, 0x6edb38fa91362bd4, 0xc89cbd2576f07b09, 0x4106c423f0c78234, 0xb27a1deadbf9ee06,
  0x84e069bbb2b25f34, 0x30cf7c7a120d2155, 0x7b4ef79d269b1a5b, 0x832c6f75f119134a, 0xeb0d7f9b6f6d77fe,
  0xeb6ef515e84ccbb1, 0xdd5fd13970d8ddf5, 0x4484196af7a54bcb, 0x5bdd8831b6cfea97, 0x3c37e9541504986a,
  0x7824e0d9b3272b5e, 0x4d8488934727b384, 0xa629956f11682856, 0xcfdc46343df6ff24, 0x9305669eb9c719d9,
  0x8c6191864cf0caf3, 0x537b2c1b9609df4c, 0x3f0c170c5579f624, 0xd03c333ee9396cd2, 0x8c13d9740fddd3f0,
  0x7736b3cce7e2140e, 0xd99d77bf2c5bca13, 0x8a9622acdb083960, 0x6a11a7151c561684, 0xc01019e50e2d13ca,
  0xae2a3f13be66529f, 0x6c1e0efa8f291ccf, 0xad0debb653a8307c, 0x32f87a468edec613, 0xf85fdf91f576bfe9,
  0x1d196c0f998a39a7, 0x39cf7527847ae488, 0xda0369e9814b24fe, 0x32be9584d32fa960, 0xd75af31f57677a7d,
  0x6ce27d630ae193d8, 0xc607d26729657f07, 0xc46f7e76df3c8e91, 0x4186935dd393a7d6, 0x108462eb65cc70bd,
  0x267be3553f62ae56, 0xa8df84457135f0fb, 0xabb5c46efb8a5bf7, 0xce2a9920af2e448c, 0x9b1f07ee7f12da40,
  0x3312fca32fa3d61b, 0xac9376c471828c29, 0x8ee9ebb867d017c1, 0x237308a02eb22cc3, 0xd2c377cc9182f0d6,
  0xd5e601dcee3473e1, 0xdb671b67e05575ea, 0xd4e6f5a7a5b8f722, 0x5cf0ab9559904c97, 0x34de2f8e6251af7d,
  0x569c0998320d2ccb, 0x8384ef6e502c6b49, 0x59a5c1a151e9ca86, 0xdbe815b25b0bfab0, 0xa7930caeada860e2,
  0x941c79f97d13c2cf, 0x178e9475f9189a45, 0xf630969177e6cd85, 0x105af3050a248543, 0x4e94b0b094520476,
  0xd8e51f387ec7586f, 0x2a8d3f04ab732804, 0x1708bb6f8fd7753c, 0x0fecf46dae27a1a5, 0x494eb706a6055c3c,
  0xe969edd2e828f99e, 0xe3d2bbc0df3e94d1, 0xe6b4bd22566d824c, 0xd091e014a1cfbac5, 0x8a4f96b61aa88a63,
  0x02232166fd239e75, 0x88fc7ffcd3d2e9bc]

/-- `index_zobrist`: src/pieces/zobrist.rs:730-734. An index past the end of the table panics; the `debug_assert!` on
the colour value always holds. -/
def indexZobrist (index : Nat) (color : Color) : M (BitVec 64) :=
  match ZOBRIST[index + BOARD_SIZE * (color.toNat - 1)]? with
  | none => panic
  | some v => .ok (BitVec.ofNat 64 v)

end Model
