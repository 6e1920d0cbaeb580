/-
Generated by `tools/gen_zigtables.py`: the tables of `expo.go` 46-821 and `normal.go` 54-829, copied mechanically.
A decimal constant `d.ddde-xx` is stored as the pair `(digits, e)` that denotes `digits * 10^-e`.
-/
import Verif.Model.Float
namespace Crazy

/-- `expo.go` 46-303: the constants of `expoK`. -/
def expoKLit : List Nat := [
  0x1ce142c806bbca, 0x00000000000000, 0x13a2e8754d11d3, 0x1893ad94056903,
  0x1abdc2caab364d, 0x1bf0d5a059f05f, 0x1cb2dcb2afeca3, 0x1d382b88438efd,
  0x1d993d4a843892, 0x1de3005cdb9685, 0x1e1ce953a7aada, 0x1e4b8ff9b72624,
  0x1e71ef51692778, 0x1e920badc7caed, 0x1ead4eb647f2a7, 0x1ec4bd2917746d,
  0x1ed917afecf097, 0x1eeaefb117c710, 0x1efab4f0d45b99, 0x1f08bebea80034,
  0x1f15524a538575, 0x1f20a71a9a4950, 0x1f2aea428b997d, 0x1f3440b9fd4d2f,
  0x1f3cc91b7046c6, 0x1f449cf3d895f2, 0x1f4bd1c2ba0869, 0x1f5279bfcb493d,
  0x1f58a4751d7f8b, 0x1f5e5f388a575e, 0x1f63b58c3ad7e9, 0x1f68b16c08dc31,
  0x1f6d5b8c044fd9, 0x1f71bb8b55855b, 0x1f75d81def9dca, 0x1f79b72ef3a811,
  0x1f7d5dfd381a11, 0x1f80d133164bc9, 0x1f8414fa616be2, 0x1f872d0d3ad391,
  0x1f8a1cc452f503, 0x1f8ce72309a699, 0x1f8f8ee1ca4a4b, 0x1f921676eecb4a,
  0x1f94801e668bf9, 0x1f96cde05350f7, 0x1f990196c55b3a, 0x1f9b1cf2b8c1d3,
  0x1f9d2180705665, 0x1f9f10ab45ad4f, 0x1fa0ebc1020c8b, 0x1fa2b3f4d0ddf9,
  0x1fa46a61d9a972, 0x1fa6100d8d74de, 0x1fa7a5e9b19fcc, 0x1fa92cd630d2bd,
  0x1faaa5a2b95b8c, 0x1fac11102f446a, 0x1fad6fd1f79125, 0x1faec28f214fb0,
  0x1fb009e37086ff, 0x1fb146604e85bf, 0x1fb2788da29d0f, 0x1fb3a0ea95eeeb,
  0x1fb4bfee44a205, 0x1fb5d6085e829f, 0x1fb6e3a1b8d84e, 0x1fb7e91cd3015a,
  0x1fb8e6d64f34c0, 0x1fb9dd2560a263, 0x1fbacc5c3004f5, 0x1fbbb4c83799b7,
  0x1fbc96b29756b3, 0x1fbd726062201c, 0x1fbe4812e4a863, 0x1fbf1807e6940d,
  0x1fbfe279e66a1e, 0x1fc0a7a050cb6a, 0x1fc167afb35e94, 0x1fc222d9ebd331,
  0x1fc2d94e535488, 0x1fc38b39e6bbb7, 0x1fc438c76bc8fa, 0x1fc4e21f93a4fb,
  0x1fc587691ae4b6, 0x1fc628c8e7450b, 0x1fc6c662234def, 0x1fc760565808ea,
  0x1fc7f6c584f268, 0x1fc889ce3649dc, 0x1fc9198d99e17d, 0x1fc9a61f928b72,
  0x1fca2f9eca3fa7, 0x1fcab624c3132d, 0x1fcb39c9e717df, 0x1fcbbaa5973916,
  0x1fcc38ce39287b, 0x1fccb459446c6f, 0x1fcd2d5b4ea00f, 0x1fcda3e816f387,
  0x1fce181290fa48, 0x1fce89eceed388, 0x1fcef988aab890, 0x1fcf66f68ffb57,
  0x1fcfd246c37f46, 0x1fd03b88cbb500, 0x1fd0a2cb9821aa, 0x1fd1081d887932,
  0x1fd16b8c7352e7, 0x1fd1cd25ac7ec6, 0x1fd22cf60b01bf, 0x1fd28b09eebe86,
  0x1fd2e76d45d02f, 0x1fd3422b919b8a, 0x1fd39b4feb9bb3, 0x1fd3f2e509ee11,
  0x1fd448f543a1c2, 0x1fd49d8a94ce02, 0x1fd4f0aea27303, 0x1fd5426abe2867,
  0x1fd592c7e99c3d, 0x1fd5e1ced9e561, 0x1fd62f87faabb8, 0x1fd67bfb7128c6,
  0x1fd6c7311f02d3, 0x1fd71130a504bf, 0x1fd75a0165b486, 0x1fd7a1aa87ca39,
  0x1fd7e832f88942, 0x1fd82da16dfd80, 0x1fd871fc691dc8, 0x1fd8b54a37d537,
  0x1fd8f790f6f4b2, 0x1fd938d6940dd2, 0x1fd97920cf386c, 0x1fd9b8753cc3d3,
  0x1fd9f6d946d4e9, 0x1fda34522ef1e9, 0x1fda70e50f7cee, 0x1fdaac96dd1e02,
  0x1fdae76c681da3, 0x1fdb216a5db062, 0x1fdb5a9549347e, 0x1fdb92f1956210,
  0x1fdbca838d6e7c, 0x1fdc014f5e23c4, 0x1fdc375916ec52, 0x1fdc6ca4aad3c6,
  0x1fdca135f17d4d, 0x1fdcd510a80fff, 0x1fdd08387219c6, 0x1fdd3ab0da6926,
  0x1fdd6c7d53de73, 0x1fdd9da13a34ba, 0x1fddce1fd2c2dd, 0x1fddfdfc4d351d,
  0x1fde2d39c43f82, 0x1fde5bdb3e496a, 0x1fde89e3ae128a, 0x1fdeb755f351ad,
  0x1fdee434db4d7f, 0x1fdf1083216f9a, 0x1fdf3c436fd21a, 0x1fdf67785fc7fd,
  0x1fdf92247a607a, 0x1fdfbc4a38e58e, 0x1fdfe5ec0555f2, 0x1fe00f0c3adaaa,
  0x1fe037ad263860, 0x1fe05fd1063cae, 0x1fe0877a0c2794, 0x1fe0aeaa5c1128,
  0x1fe0d5640d4bc6, 0x1fe0fba92ac2c9, 0x1fe1217bb35607, 0x1fe146dd9a321c,
  0x1fe16bd0c725b9, 0x1fe1905716f40a, 0x1fe1b4725ba44e, 0x1fe1d8245ccec7,
  0x1fe1fb6ed7e715, 0x1fe21e53808417, 0x1fe240d400a56d, 0x1fe262f1f8f6b3,
  0x1fe284af011080, 0x1fe2a60ca7b754, 0x1fe2c70c731872, 0x1fe2e7afe104cc,
  0x1fe307f8672a07, 0x1fe327e77349b3, 0x1fe3477e6b6ebc, 0x1fe366beae2137,
  0x1fe385a9929884, 0x1fe3a44068ebe6, 0x1fe3c2847a4199, 0x1fe3e07708fc73,
  0x1fe3fe1950e81d, 0x1fe41b6c8763f6, 0x1fe43871db8ca3, 0x1fe4552a766464,
  0x1fe471977afa2c, 0x1fe48dba068f92, 0x1fe4a99330bd9d, 0x1fe4c5240b987e,
  0x1fe4e06da3d237, 0x1fe4fb7100dc40, 0x1fe5162f250832, 0x1fe530a90da77a,
  0x1fe54adfb32a2b, 0x1fe564d4093cdf, 0x1fe57e86fee5cb, 0x1fe597f97ea0f4,
  0x1fe5b12c6e7ba0, 0x1fe5ca20b02ef6, 0x1fe5e2d72139ee, 0x1fe5fb509afa74,
  0x1fe6138df2c5e8, 0x1fe62b8ffa00ea, 0x1fe643577e367b, 0x1fe65ae5492e80,
  0x1fe6723a2103a8, 0x1fe68956c838b2, 0x1fe6a03bfdcd2d, 0x1fe6b6ea7d5199,
  0x1fe6cd62fefb09, 0x1fe6e3a637b63c, 0x1fe6f9b4d93a30, 0x1fe70f8f921a3e,
  0x1fe725370dd7b3, 0x1fe73aabf4f2fd, 0x1fe74feeecfc5c, 0x1fe7650098a429,
  0x1fe779e197caaf, 0x1fe78e92878f9a, 0x1fe7a314026109, 0x1fe7b766a00a2d,
  0x1fe7cb8af5c19a, 0x1fe7df81963731, 0x1fe7f34b11a1b1, 0x1fe806e7f5cbf3,
  0x1fe81a58ce21d2, 0x1fe82d9e23bcbb, 0x1fe840b87d6ff7, 0x1fe853a85fd499,
  0x1fe8666e4d5531, 0x1fe8790ac63927, 0x1fe88b7e48afd9, 0x1fe89dc950db71,
  0x1fe8afec58db72, 0x1fe8c1e7d8d710, 0x1fe8d3bc470739, 0x1fe8e56a17c070,
  0x1fe8f6f1bd7c5e, 0x1fe90853a8e335, 0x1fe9199048d4d1, 0x1fe92aa80a71a4,
  0x1fe93b9b592372, 0x1fe94c6a9ea5d1, 0x1fe95d16430e79, 0x1fe96d9eacd569,
  0x1fe97e0440dcce, 0x1fe98e476278c9, 0x1fe99e68737701, 0x1fe9ae67d4260a,
  0x1fe9be45e35c9c, 0x1fe9ce02fe80ac, 0x1fe9dd9f818e4e, 0x1fe9ed1bc71e7a,
  0x1fe9fc78286da4, 0x1fea0bb4fd622f, 0x1fea1ad29c92c2, 0x1fea29d15b4c6b,
  0x1fea38b18d98b2, 0x1fea4773864375, 0x1fea561796e0b6, 0x1fea649e0fd23d,
  0x1fea7307404d1e, 0x1fea8153765f1f, 0x1fea8f82fef403, 0x1fea9d9625dab6,
  0x1feaab8d35ca5b, 0x1feab968786744, 0x1feac7283647c3, 0x1fead4ccb6f8f2,
  0x1feae256410352, 0x1feaefc519ef56, 0x1feafd198649db, 0x1feb0a53c9a87f,
  0x1feb177426ade9, 0x1feb247adf0df3, 0x1feb31683391c2, 0x1feb3e3c641bc8,
  0x1feb4af7afabb3, 0x1feb579a54623f, 0x1feb64248f8501, 0x1feb70969d820f,
  0x1feb7cf0b9f3a6, 0x1feb89331fa3aa, 0x1feb955e088f28, 0x1feba171ade9b4,
  0x1febad6e4820c2, 0x1febb9540edee8, 0x1febc523390f11, 0x1febd0dbfcdfa0,
  0x1febdc7e8fc583, 0x1febe80b267f33, 0x1febf381f517ae, 0x1febfee32ee957,
  0x1fec0a2f06a0cf, 0x1fec1565ae3fbd, 0x1fec2087571f89, 0x1fec2b9431f408,
  0x1fec368c6ece1f, 0x1fec41703d1e52, 0x1fec4c3fcbb74e, 0x1fec56fb48d060,
  0x1fec61a2e207e6, 0x1fec6c36c465ae, 0x1fec76b71c5d4f, 0x1fec812415d072,
  0x1fec8b7ddc1116, 0x1fec95c499e3c1, 0x1fec9ff87981ad, 0x1fecaa19a49ae9,
  0x1fecb42844586c, 0x1fecbe24815e28, 0x1fecc80e83cd04, 0x1fecd1e67344dd,
  0x1fecdbac76e672, 0x1fece560b5554a, 0x1fecef0354b994, 0x1fecf8947ac1fc,
  0x1fed02144ca577, 0x1fed0b82ef2507, 0x1fed14e0868d78, 0x1fed1e2d36b915,
  0x1fed276923114f, 0x1fed30946e906a, 0x1fed39af3bc313, 0x1fed42b9acc9fa,
  0x1fed4bb3e35b5d, 0x1fed549e00c492, 0x1fed5d7825eb87, 0x1fed664273503c,
  0x1fed6efd090e34, 0x1fed77a806dde4, 0x1fed80438c1618, 0x1fed88cfb7ad55,
  0x1fed914ca83b2d, 0x1fed99ba7bf99b, 0x1feda21950c64a, 0x1fedaa694423e0,
  0x1fedb2aa733b41, 0x1fedbadcfadccc, 0x1fedc300f78190, 0x1fedcb16854c82,
  0x1fedd31dc00ba5, 0x1feddb16c33938, 0x1fede301a9fcd3, 0x1fedeade8f2c88,
  0x1fedf2ad8d4dfd, 0x1fedfa6ebe977d, 0x1fee02223cf109, 0x1fee09c821f567,
  0x1fee116086f321, 0x1fee18eb84ed8f, 0x1fee2069349dce, 0x1fee27d9ae73c1,
  0x1fee2f3d0a96ff, 0x1fee369360e7cb, 0x1fee3ddcc8ffff, 0x1fee45195a33f2,
  0x1fee4c492b9366, 0x1fee536c53ea62, 0x1fee5a82e9c215, 0x1fee618d0361ae,
  0x1fee688ab6cf37, 0x1fee6f7c19d064, 0x1fee766141eb64, 0x1fee7d3a4467b3,
  0x1fee8407364edc, 0x1fee8ac82c6d44, 0x1fee917d3b52ed, 0x1fee9826775433,
  0x1fee9ec3f48a8c, 0x1feea555c6d540, 0x1feeabdc01da1f, 0x1feeb256b9063a,
  0x1feeb8c5ff8e8b, 0x1feebf29e870ae, 0x1feec582867384, 0x1feecbcfec27df,
  0x1feed2122be928, 0x1feed84957de04, 0x1feede7581f8f2, 0x1feee496bbf8eb,
  0x1feeeaad1769fe, 0x1feef0b8a5a5e7, 0x1feef6b977d4ac, 0x1feefcaf9eed2a,
  0x1fef029b2bb5ae, 0x1fef087c2ec47f, 0x1fef0e52b88072, 0x1fef141ed92172,
  0x1fef19e0a0b108, 0x1fef1f981f0ae6, 0x1fef254563dd6c, 0x1fef2ae87eaa27,
  0x1fef30817ec656, 0x1fef3610735b68, 0x1fef3b956b677a, 0x1fef411075bdd0,
  0x1fef4681a10750, 0x1fef4be8fbc2fa, 0x1fef514694465d, 0x1fef569a78be09,
  0x1fef5be4b72e05, 0x1fef61255d723b, 0x1fef665c793eea, 0x1fef6b8a182112,
  0x1fef70ae477edc, 0x1fef75c914980a, 0x1fef7ada8c8659, 0x1fef7fe2bc3dea,
  0x1fef84e1b08da7, 0x1fef89d7761fa5, 0x1fef8ec4197987, 0x1fef93a7a6fce0,
  0x1fef98822ae78b, 0x1fef9d53b15411, 0x1fefa21c4639ff, 0x1fefa6dbf56e44,
  0x1fefab92caa386, 0x1fefb040d16a7e, 0x1fefb4e615324e, 0x1fefb982a148d3,
  0x1fefbe1680dafc, 0x1fefc2a1bef519, 0x1fefc724668333, 0x1fefcb9e825154,
  0x1fefd0101d0bda, 0x1fefd479413fc5, 0x1fefd8d9f95b02, 0x1fefdd324facb7,
  0x1fefe1824e658c, 0x1fefe5c9ff97f7, 0x1fefea096d387f, 0x1fefee40a11e06,
  0x1feff26fa5020e, 0x1feff6968280ff, 0x1feffab5431a67, 0x1feffecbf0313f,
  0x1ff002da930c2c, 0x1ff006e134d5bf, 0x1ff00adfde9cb5, 0x1ff00ed6995434,
  0x1ff012c56dd40c, 0x1ff016ac64d8ed, 0x1ff01a8b8704a9, 0x1ff01e62dcde6b,
  0x1ff022326ed2f3, 0x1ff025fa4534ca, 0x1ff029ba683c81, 0x1ff02d72e008e1,
  0x1ff03123b49f26, 0x1ff034ccedeb31, 0x1ff0386e93bfbf, 0x1ff03c08add698,
  0x1ff03f9b43d0c9, 0x1ff043265d36ce, 0x1ff046aa0178c7, 0x1ff04a2637eeaa,
  0x1ff04d9b07d86c, 0x1ff05108785e39, 0x1ff0546e909096, 0x1ff057cd57689b,
  0x1ff05b24d3c814, 0x1ff05e750c79b4, 0x1ff061be08313c, 0x1ff064ffcd8ba6,
  0x1ff0683a630f4f, 0x1ff06b6dcf2c20, 0x1ff06e9a183bb5, 0x1ff071bf448182,
  0x1ff074dd5a2aff, 0x1ff077f45f4fc9, 0x1ff07b0459f1c8, 0x1ff07e0d4ffd57,
  0x1ff0810f474962, 0x1ff0840a45978e, 0x1ff086fe50945b, 0x1ff089eb6dd741,
  0x1ff08cd1a2e2d8, 0x1ff08fb0f524f4, 0x1ff0928969f6c7, 0x1ff0955b069cff,
  0x1ff09825d047e6, 0x1ff09ae9cc137f, 0x1ff09da6ff07a4, 0x1ff0a05d6e1824,
  0x1ff0a30d1e24dc, 0x1ff0a5b613f9d6, 0x1ff0a858544f64, 0x1ff0aaf3e3ca39,
  0x1ff0ad88c6fb83, 0x1ff0b017026104, 0x1ff0b29e9a652f, 0x1ff0b51f935f39,
  0x1ff0b799f19338, 0x1ff0ba0db93235, 0x1ff0bc7aee5a46, 0x1ff0bee19516a2,
  0x1ff0c141b15fb5, 0x1ff0c39b471b3b, 0x1ff0c5ee5a1c4e, 0x1ff0c83aee237d,
  0x1ff0ca8106dee0, 0x1ff0ccc0a7ea27, 0x1ff0cef9d4ceb1, 0x1ff0d12c91039d,
  0x1ff0d358dfedd9, 0x1ff0d57ec4e032, 0x1ff0d79e431b6b, 0x1ff0d9b75dce43,
  0x1ff0dbca18158d, 0x1ff0ddd674fc39, 0x1ff0dfdc777b66, 0x1ff0e1dc227a6c,
  0x1ff0e3d578ceef, 0x1ff0e5c87d3ce5, 0x1ff0e7b53276a5, 0x1ff0e99b9b1cf7,
  0x1ff0eb7bb9bf19, 0x1ff0ed5590dacb, 0x1ff0ef2922dc5d, 0x1ff0f0f6721eb8,
  0x1ff0f2bd80eb61, 0x1ff0f47e517a8b, 0x1ff0f638e5f319, 0x1ff0f7ed406aa9,
  0x1ff0f99b62e59b, 0x1ff0fb434f5716, 0x1ff0fce507a110, 0x1ff0fe808d9456,
  0x1ff10015e2f08b, 0x1ff101a5096437, 0x1ff1032e028cc1, 0x1ff104b0cff67a,
  0x1ff1062d731ca0, 0x1ff107a3ed695d, 0x1ff109144035cf, 0x1ff10a7e6cca04,
  0x1ff10be2745d03, 0x1ff10d405814c6, 0x1ff10e98190641, 0x1ff10fe9b8355e,
  0x1ff111353694fd, 0x1ff1127a9506f5, 0x1ff113b9d45c14, 0x1ff114f2f55418,
  0x1ff11625f89db3, 0x1ff11752ded684, 0x1ff11879a88b16, 0x1ff1199a5636db,
  0x1ff11ab4e8442a, 0x1ff11bc95f0c38, 0x1ff11cd7bad713, 0x1ff11ddffbdb9f,
  0x1ff11ee2223f8b, 0x1ff11fde2e1752, 0x1ff120d41f662a, 0x1ff121c3f61e06,
  0x1ff122adb21f86, 0x1ff123915339f5, 0x1ff1246ed92b39, 0x1ff12546439fd0,
  0x1ff126179232c1, 0x1ff126e2c46d93, 0x1ff127a7d9c842, 0x1ff12866d1a933,
  0x1ff1291fab6527, 0x1ff129d2663f2f, 0x1ff12a7f01689d, 0x1ff12b257c00f9,
  0x1ff12bc5d515f1, 0x1ff12c600ba346, 0x1ff12cf41e92c4, 0x1ff12d820cbc2d,
  0x1ff12e09d4e527, 0x1ff12e8b75c130, 0x1ff12f06edf185, 0x1ff12f7c3c0518,
  0x1ff12feb5e7874, 0x1ff1305453b5b0, 0x1ff130b71a1459, 0x1ff13113afd95b,
  0x1ff1316a1336ed, 0x1ff131ba424c7c, 0x1ff132043b2694, 0x1ff13247fbbec6,
  0x1ff1328581fb93, 0x1ff132bccbb054, 0x1ff132edd69d1d, 0x1ff13318a06ea6,
  0x1ff1333d26be31, 0x1ff1335b67116b, 0x1ff133735eda56, 0x1ff133850b7726,
  0x1ff133906a3229, 0x1ff133957841a6, 0x1ff1339432c7c0, 0x1ff1338c96d255,
  0x1ff1337ea15adf, 0x1ff1336a4f4653, 0x1ff1334f9d64ff, 0x1ff1332e887269,
  0x1ff133070d152b, 0x1ff132d927decd, 0x1ff132a4d54ba5, 0x1ff1326a11c2ae,
  0x1ff13228d99562, 0x1ff131e128ff97, 0x1ff13192fc2751, 0x1ff1313e4f1c9c,
  0x1ff130e31dd966, 0x1ff1308164414f, 0x1ff130191e2180, 0x1ff12faa473082,
  0x1ff12f34db0e0a, 0x1ff12eb8d542d2, 0x1ff12e36314068, 0x1ff12dacea60fc,
  0x1ff12d1cfbe731, 0x1ff12c8660fded, 0x1ff12be914b824, 0x1ff12b451210a4,
  0x1ff12a9a53e9e3, 0x1ff129e8d50dc7, 0x1ff12930902d73, 0x1ff128717fe108,
  0x1ff127ab9ea776, 0x1ff126dee6e63a, 0x1ff1260b52e926, 0x1ff12530dce227,
  0x1ff1244f7ee906, 0x1ff1236732fb28, 0x1ff12277f2fb51, 0x1ff12181b8b164,
  0x1ff120847dca1f, 0x1ff11f803bd6d8, 0x1ff11e74ec4d3a, 0x1ff11d628886ff,
  0x1ff11c4909c1a8, 0x1ff11b28691e38, 0x1ff11a009fa0e6, 0x1ff118d1a630d6,
  0x1ff1179b7597ca, 0x1ff1165e0681d7, 0x1ff11519517d14, 0x1ff113cd4ef94a,
  0x1ff11279f747a3, 0x1ff1111f429a53, 0x1ff10fbd29044a, 0x1ff10e53a278d6,
  0x1ff10ce2a6cb50, 0x1ff10b6a2daec0, 0x1ff109ea2eb581, 0x1ff10862a150e7,
  0x1ff106d37cd0de, 0x1ff1053cb86389, 0x1ff1039e4b14e3, 0x1ff101f82bce57,
  0x1ff1004a51565d, 0x1ff0fe94b25013, 0x1ff0fcd7453ad1, 0x1ff0fb120071be,
  0x1ff0f944da2b66, 0x1ff0f76fc87945, 0x1ff0f592c1475c, 0x1ff0f3adba5bb6,
  0x1ff0f1c0a955fc, 0x1ff0efcb83aef3, 0x1ff0edce3eb80b, 0x1ff0ebc8cf9adc,
  0x1ff0e9bb2b58ad, 0x1ff0e7a546c9f0, 0x1ff0e587169dbe, 0x1ff0e3608f5956,
  0x1ff0e131a55790, 0x1ff0defa4cc858, 0x1ff0dcba79b01a, 0x1ff0da721fe739,
  0x1ff0d82133197a, 0x1ff0d5c7a6c56c, 0x1ff0d3656e3bd8, 0x1ff0d0fa7c9f1e,
  0x1ff0ce86c4e29c, 0x1ff0cc0a39ca0f, 0x1ff0c984cde8ea, 0x1ff0c6f673a1b7,
  0x1ff0c45f1d2566, 0x1ff0c1bebc72a5, 0x1ff0bf15435531, 0x1ff0bc62a3651e,
  0x1ff0b9a6ce0624, 0x1ff0b6e1b466e2, 0x1ff0b413478025, 0x1ff0b13b781421,
  0x1ff0ae5a36adb1, 0x1ff0ab6f739f8b, 0x1ff0a87b1f0373, 0x1ff0a57d28b970,
  0x1ff0a2758066ef, 0x1ff09f641575f3, 0x1ff09c48d71432, 0x1ff09923b43237,
  0x1ff095f49b827a, 0x1ff092bb7b787c, 0x1ff08f784247d0, 0x1ff08c2adde32f,
  0x1ff088d33bfb7e, 0x1ff0857149fed0, 0x1ff08204f51766, 0x1ff07e8e2a2aa6,
  0x1ff07b0cd5d812, 0x1ff07780e47835, 0x1ff073ea421b8e, 0x1ff07048da896e,
  0x1ff06c9c993ee0, 0x1ff068e5696d77, 0x1ff0652335fa27, 0x1ff06155e97c0f,
  0x1ff05d7d6e3b3d, 0x1ff05999ae2f72, 0x1ff055aa92fed7, 0x1ff051b005fcb1,
  0x1ff04da9f0280d, 0x1ff049983a2a63, 0x1ff0457acc5635, 0x1ff041518ea5a4,
  0x1ff03d1c68b8ff, 0x1ff038db41d549, 0x1ff0348e00e2ba, 0x1ff030348c6b33,
  0x1ff02bceca98b1, 0x1ff0275ca133ad, 0x1ff022ddf5a180, 0x1ff01e52ace2b3,
  0x1ff019baab914d, 0x1ff01515d5df14, 0x1ff010640f93c9, 0x1ff00ba53c0b50,
  0x1ff006d93e33de, 0x1ff001fff88c0b, 0x1feffd194d20e8, 0x1feff8251d8c04,
  0x1feff3234af162, 0x1fefee13b5fd6b, 0x1fefe8f63ee2d3, 0x1fefe3cac5586c,
  0x1fefde912896f6, 0x1fefd9494756d7, 0x1fefd3f2ffcdd5, 0x1fefce8e2facb1,
  0x1fefc91ab41cc8, 0x1fefc39869bd94, 0x1fefbe072ca228, 0x1fefb866d84e9f,
  0x1fefb2b747b579, 0x1fefacf85534e2, 0x1fefa729da93f9, 0x1fefa14bb0fff5,
  0x1fef9b5db10947, 0x1fef955fb2a0a3, 0x1fef8f518d13f9, 0x1fef8933170b5f,
  0x1fef83042685e3, 0x1fef7cc490d651, 0x1fef76742a9fda, 0x1fef7012c7d2b7,
  0x1fef69a03ba8a6, 0x1fef631c58a15f, 0x1fef5c86f07ee9, 0x1fef55dfd441e3,
  0x1fef4f26d425ab, 0x1fef485bbf9c74, 0x1fef417e654b41, 0x1fef3a8e9305c9,
  0x1fef338c15ca3d, 0x1fef2c76b9bcf3, 0x1fef254e4a2400, 0x1fef1e129162a5,
  0x1fef16c358f4ac, 0x1fef0f606969a0, 0x1fef07e98a5feb, 0x1fef005e827fd0,
  0x1feef8bf177645, 0x1feef10b0defaf, 0x1feee942299274, 0x1feee1642cf971,
  0x1feed970d9ae46, 0x1feed167f0237e, 0x1feec9492fae8f, 0x1feec1145681b2,
  0x1feeb8c921a58f, 0x1feeb0674cf2c6, 0x1feea7ee930b3e, 0x1fee9f5ead5355,
  0x1fee96b753ead6, 0x1fee8df83da5c4, 0x1fee85212004f2, 0x1fee7c31af2e64,
  0x1fee73299de581, 0x1fee6a089d8304, 0x1fee60ce5decc0, 0x1fee577a8d8d21,
  0x1fee4e0cd94a70, 0x1fee4484ec7dde, 0x1fee3ae270ea4b, 0x1fee31250eb2c6,
  0x1fee274c6c50d2, 0x1fee1d582e8a57, 0x1fee1347f86753, 0x1fee091b6b273b,
  0x1fedfed226360e, 0x1fedf46bc72111, 0x1fede9e7e98b3f, 0x1feddf4627215c,
  0x1fedd486178db0, 0x1fedc9a7506b60, 0x1fedbea965396e, 0x1fedb38be74d4d,
  0x1feda84e65c511, 0x1fed9cf06d7933, 0x1fed917188ede5, 0x1fed85d14043f3,
  0x1fed7a0f19292b, 0x1fed6e2a96c84e, 0x1fed622339b875, 0x1fed55f87fec02,
  0x1fed49a9e49ef6, 0x1fed3d36e044c3, 0x1fed309ee87582, 0x1fed23e16fda96,
  0x1fed16fde61aa9, 0x1fed09f3b7c502, 0x1fecfcc24e3c38, 0x1fecef690fa025,
  0x1fece1e75eb728, 0x1fecd43c9ad6a2, 0x1fecc6681fcaac, 0x1fecb86945bcf9,
  0x1fecaa3f611ae4, 0x1fec9be9c27a96, 0x1fec8d67b67f48, 0x1fec7eb885bc8a,
  0x1fec6fdb749894, 0x1fec60cfc32d86, 0x1fec5194ad299c, 0x1fec422969ae3c,
  0x1fec328d2b2de4, 0x1fec22bf1f48d6, 0x1fec12be6ea886, 0x1fec028a3cd9b4,
  0x1febf221a8252d, 0x1febe183c9670d, 0x1febd0afb3e495, 0x1febbfa4752065,
  0x1febae6114ad16, 0x1feb9ce493fe28, 0x1feb8b2dee3720, 0x1feb793c17f8d6,
  0x1feb670dff2cc5, 0x1feb54a28ace64, 0x1feb41f89ab255, 0x1feb2f0f074b67,
  0x1feb1be4a16d3d, 0x1feb0878320c91, 0x1feaf4c879fcef, 0x1feae0d431abbf,
  0x1feacc9a08d893, 0x1feab818a64a83, 0x1feaa34ea78281, 0x1fea8e3aa06a76,
  0x1fea78db1b010a, 0x1fea632e9701e4, 0x1fea4d33898a36, 0x1fea36e85cb96e,
  0x1fea204b6f4dd7, 0x1fea095b143cec, 0x1fe9f215924732, 0x1fe9da79238760,
  0x1fe9c283f4fc82, 0x1fe9aa34260ef2, 0x1fe99187c80fc6, 0x1fe9787cddb27f,
  0x1fe95f115a809d, 0x1fe945432246c2, 0x1fe92b10087b1e, 0x1fe91075cf9cab,
  0x1fe8f572288aef, 0x1fe8da02b1d5c3, 0x1fe8be24f704c2, 0x1fe8a1d66fd5d4,
  0x1fe885147f7262, 0x1fe867dc739aab, 0x1fe84a2b83c699, 0x1fe82bfed03b8b,
  0x1fe80d53611666, 0x1fe7ee2625493f, 0x1fe7ce73f18bd6, 0x1fe7ae397f3e29,
  0x1fe78d736b3c3c, 0x1fe76c1e34a225, 0x1fe74a363b7f7d, 0x1fe727b7bf790d,
  0x1fe7049ede57b6, 0x1fe6e0e792834b, 0x1fe6bc8db16825, 0x1fe6978ce9c603,
  0x1fe671e0c1e6c8, 0x1fe64b8495bb6e, 0x1fe6247394dd8a, 0x1fe5fca8c07372,
  0x1fe5d41ee8f51c, 0x1fe5aad0abcf7f, 0x1fe580b870e42c, 0x1fe555d067e2a0,
  0x1fe52a12857886, 0x1fe4fd7880561c, 0x1fe4cffbce0368, 0x1fe4a1959f82e4,
  0x1fe4723eddbde3, 0x1fe441f025b691, 0x1fe410a1c47b3a, 0x1fe3de4bb2d5ff,
  0x1fe3aae590b3cd, 0x1fe37666a03cda, 0x1fe340c5c09883, 0x1fe309f96855be,
  0x1fe2d1f79f70c1, 0x1fe298b5f8edc5, 0x1fe25e298c000b, 0x1fe22246ecb36a,
  0x1fe1e502240dd1, 0x1fe1a64ea79cf0, 0x1fe1661f506340, 0x1fe12466511634,
  0x1fe0e1152b9dfa, 0x1fe09c1ca5c586, 0x1fe0556cbd07ed, 0x1fe00cf49965e1,
  0x1fdfc2a27f2c03, 0x1fdf7663bf9023, 0x1fdf2824a8088b, 0x1fded7d0703d61,
  0x1fde855126705d, 0x1fde308f9a32f1, 0x1fddd973453e66, 0x1fdd7fe2323bfe,
  0x1fdd23c0e1452b, 0x1fdcc4f229dd06, 0x1fdc63571a1c4b, 0x1fdbfeced2c01b,
  0x1fdb97365fc177, 0x1fdb2c688d0f8b, 0x1fdabe3db6f92c, 0x1fda4c8b95c24b,
  0x1fd9d72503cfc4, 0x1fd95dd9bdbef4, 0x1fd8e0761ba5e9, 0x1fd85ec2c29c6d,
  0x1fd7d8844d8cda, 0x1fd74d7aec2468, 0x1fd6bd61f68cd8, 0x1fd627ef746325,
  0x1fd58cd3951ed5, 0x1fd4ebb817d1c2, 0x1fd4443f9fcda6, 0x1fd39604f3511c,
  0x1fd2e09a20dc3f, 0x1fd223878731c8, 0x1fd15e4abb4d94, 0x1fd0905546b5d4,
  0x1fcfb90b37769e, 0x1fced7c179c444, 0x1fcdebbbf19f89, 0x1fccf42b48d34f,
  0x1fcbf02a63233d, 0x1fcadebb6763a3, 0x1fc9bec4484712, 0x1fc88f0ab2ba29,
  0x1fc74e2f41599a, 0x1fc5faa7cc7e95, 0x1fc492b8a3f8da, 0x1fc3146c720d64,
  0x1fc17d8a75a29c, 0x1fbfcb8aaa2a0f, 0x1fbdfb8754ba16, 0x1fbc0a2b43eb4b,
  0x1fb9f39bd71f30, 0x1fb7b35d938f7c, 0x1fb54431a09a74, 0x1fb29fe9eb39c4,
  0x1fafbf30d51c86, 0x1fac9940155db5, 0x1fa923809add97, 0x1fa5510a7e2e33,
  0x1fa111f7d6ccf2, 0x1f9c5276a7d6ff, 0x1f96f97b763f40, 0x1f90e6e48f5fd7,
  0x1f89f0c02df865, 0x1f81df33180649, 0x1f78661cee4357, 0x1f6d1ade61b01f,
  0x1f5f632ea2dce6, 0x1f4e56c35fc3f7, 0x1f38862a92f170, 0x1f1b862fe29563,
  0x1ef2e7b5562b19, 0x1eb584cfe7bbe6, 0x1e4cc4bf01d278, 0x1d6bfb46d88c28]

theorem expoKLit_length : expoKLit.length = 1024 := by decide +kernel

/-- `expo.go` 46-303: `expoK`. -/
def expoK : Vector U64 1024 :=
  ⟨(expoKLit.map (BitVec.ofNat 64)).toArray, by rw [List.size_toArray, List.length_map, expoKLit_length]⟩

/-- `expo.go` 305-562: the constants of `expoW`. -/
def expoWLit : List (Nat × Nat) := [
  (113866300213877813, 32), (350242056868416685, 35), (570764952751972552, 35), (743157304507964198, 35),
  (889301382714102794, 35), (101849930256090362, 34), (113566120763560199, 34), (124373330462895014, 34),
  (134464053055239106, 34), (143971940744360142, 34), (152994122305171874, 34), (161603734793054288, 34),
  (169857437005156817, 34), (177800154948490313, 34), (185468208790794572, 34), (192891447096363812, 34),
  (200094747399575766, 34), (207099098388363480, 34), (213922397691885634, 34), (220580051413288253, 34),
  (227085432365339685, 34), (233450235613893963, 34), (239684758075173161, 34), (245798121063206663, 34),
  (251798449374771436, 34), (257693016838210481, 34), (263488365683286212, 34), (269190405257174441, 34),
  (274804494286134748, 34), (280335509910373130, 34), (285787905998030641, 34), (291165762702436677, 34),
  (296472828815662770, 34), (301712558156409405, 34), (306888140986687519, 34), (312002531261801955, 34),
  (317058470368832284, 34), (322058507890550994, 34), (327005019837409651, 34), (331900224714507652, 34),
  (336746197729291870, 34), (341544883396033694, 34), (346298106752513256, 34), (351007583370977331, 34),
  (355674928317893002, 34), (360301664194168814, 34), (364889228368475191, 34), (369438979500361947, 34),
  (373952203436478575, 34), (378430118551906078, 34), (382873880599043852, 34), (387284587118362003, 34),
  (391663281458397442, 34), (396010956446438125, 34), (400328557746248912, 34), (404616986934806411, 34),
  (408877104326225461, 34), (413109731567783096, 34), (417315654030096701, 34), (421495623011038930, 34),
  (425650357770807539, 34), (429780547413678012, 34), (433886852630308135, 34), (437969907313005329, 34),
  (442030320055085859, 34), (446068675544319532, 34), (450085535859453662, 34), (454081441677920346, 34),
  (458056913402044554, 34), (462012452210367440, 34), (465948541040075780, 34), (469865645505969950, 34),
  (473764214760904961, 34), (477644682302191072, 34), (481507466728040892, 34), (485352972447789544, 34),
  (489181590349291082, 34), (492993698426600875, 34), (496789662370792738, 34), (500569836126519279, 34),
  (504334562416710039, 34), (508084173237606483, 34), (511818990326155613, 34), (515539325601623859, 34),
  (519245481583145717, 34), (522937751784789536, 34), (526616421089601042, 34), (530281766103974008, 34),
  (533934055493597026, 34), (537573550302132608, 34), (541200504253700168, 34), (544815164040155802, 34),
  (548417769594092893, 34), (552008554348419563, 34), (555587745483310531, 34), (559155564161275402, 34),
  (562712225751033443, 34), (566257940040840001, 34), (569792911441864214, 34), (573317339182178903, 34),
  (576831417491886752, 34), (580335335779871866, 34), (583829278802635728, 34), (587313426825644027, 34),
  (590787955777588901, 34), (594253037397940196, 34), (597708839378140594, 34), (601155525496774833, 34),
  (604593255749024622, 34), (608022186470701729, 34), (611442470457132772, 34), (614854257077155906, 34),
  (618257692382471985, 34), (621652919212578466, 34), (625040077295503742, 34), (628419303344544295, 34),
  (631790731151195959, 34), (635154491674463330, 34), (638510713126714457, 34), (641859521056246471, 34),
  (645201038426711684, 34), (648535385693550682, 34), (651862680877568281, 34), (655183039635782105, 34),
  (658496575329665713, 34), (661803399090902991, 34), (665103619884764002, 34), (668397344571204976, 34),
  (671684677963794495, 34), (674965722886556345, 34), (678240580228820122, 34), (681509348998165384, 34),
  (684772126371536022, 34), (688029007744605938, 34), (691280086779465688, 34), (694525455450699849, 34),
  (697765204089922405, 34), (700999421428830436, 34), (704228194640838963, 34), (707451609381350078, 34),
  (710669749826714292, 34), (713882698711932909, 34), (717090537367152949, 34), (720293345752999490, 34),
  (723491202494792634, 34), (726684184915689645, 34), (729872369068795414, 34), (733055829768278701, 34),
  (736234640619532022, 34), (739408874048411141, 34), (742578601329588457, 34), (745743892614052207, 34),
  (748904816955783273, 34), (752061442337639926, 34), (755213835696477749, 34), (758362062947534310, 34),
  (761506189008102266, 34), (764646277820518860, 34), (767782392374492908, 34), (770914594728795881, 34),
  (774042946032335713, 34), (777167506544637473, 34), (780288335655749535, 34), (783405491905595321, 34),
  (786519033002790468, 34), (789629015842941934, 34), (792735496526446554, 34), (795838530375807270, 34),
  (798938171952481110, 34), (802034475073275782, 34), (805127492826308455, 34), (808217277586542374, 34),
  (811303881030913265, 34), (814387354153060087, 34), (817467747277673049, 34), (820545110074468898, 34),
  (823619491571807650, 34), (826690940169961470, 34), (829759503654045216, 34), (832825229206620955, 34),
  (835888163419985706, 34), (838948352308151647, 34), (842005841318529637, 34), (845060675343323331, 34),
  (848112898730644100, 34), (851162555295354792, 34), (854209688329649217, 34), (857254340613377475, 34),
  (860296554424122665, 34), (863336371547037247, 34), (866373833284446306, 34), (869408980465223419, 34),
  (872441853453947103, 34), (875472492159843547, 34), (878500936045520899, 34), (881527224135503018, 34),
  (884551395024566624, 34), (887573486885888013, 34), (890593537479005498, 34), (893611584157600782, 34),
  (896627663877107150, 34), (899641813202145720, 34), (902654068313798122, 34), (905664465016717829, 34),
  (908673038746084713, 34), (911679824574408223, 34), (914684857218181801, 34), (917688171044394437, 34),
  (920689800076901207, 34), (923689778002657626, 34), (926688138177820984, 34), (929684913633723879, 34),
  (932680137082719675, 34), (935673840923907163, 34), (938666057248735546, 34), (941656817846492320, 34),
  (944646154209679607, 34), (947634097539278079, 34), (950620678749905365, 34), (953605928474868584, 34),
  (956589877071115063, 34), (959572554624083708, 34), (962553990952459616, 34), (965534215612833288, 34),
  (968513257904268869, 34), (971491146872781551, 34), (974467911315727711, 34), (977443579786109619, 34),
  (980418180596796592, 34), (983391741824665274, 34), (986364291314659314, 34), (989335856683773363, 34),
  (992306465324960395, 34), (995276144410965083, 34), (998244920898086293, 34), (100121282152986834, 33),
  (100417987284072419, 33), (100714610115949139, 33), (101011153261292315, 33), (101307619312911505, 33),
  (101604010844086932, 33), (101900330408899940, 33), (102196580542557368, 33), (102492763761710182, 33),
  (102788882564766411, 33), (103084939432198605, 33), (103380936826845768, 33), (103676877194210111, 33),
  (103972762962748555, 33), (104268596544159228, 33), (104564380333663023, 33), (104860116710280255, 33),
  (105155808037102722, 33), (105451456661561074, 33), (105747064915687647, 33), (106042635116375016, 33),
  (106338169565630065, 33), (106633670550823963, 33), (106929140344937998, 33), (107224581206805350, 33),
  (107519995381348891, 33), (107815385099815248, 33), (108110752580004962, 33), (108406100026499016, 33),
  (108701429630881762, 33), (108996743571960260, 33), (109292044015980230, 33), (109587333116838589, 33),
  (109882613016292633, 33), (110177885844166078, 33), (110473153718551823, 33), (110768418746011716, 33),
  (111063683021773164, 33), (111358948629922863, 33), (111654217643597637, 33), (111949492125172265, 33),
  (112244774126444748, 33), (112540065688818639, 33), (112835368843482824, 33), (113130685611588700, 33),
  (113426018004424635, 33), (113721368023588112, 33), (114016737661155233, 33), (114312128899848038, 33),
  (114607543713199171, 33), (114902984065714518, 33), (115198451913033436, 33), (115493949202086751, 33),
  (115789477871252708, 33), (116085039850510597, 33), (116380637061592587, 33), (116676271418133165, 33),
  (116971944825816850, 33), (117267659182523937, 33), (117563416378474067, 33), (117859218296368247, 33),
  (118155066811528801, 33), (118450963792037639, 33), (118746911098872637, 33), (119042910586042500, 33),
  (119338964100719642, 33), (119635073483371603, 33), (119931240567890890, 33), (120227467181722921, 33),
  (120523755145992785, 33), (120820106275630154, 33), (121116522379492887, 33), (121413005260489129, 33),
  (121709556715697839, 33), (122006178536488073, 33), (122302872508636879, 33), (122599640412445572, 33),
  (122896484022855082, 33), (123193405109559679, 33), (123490405437119549, 33), (123787486765072178, 33),
  (124084650848042274, 33), (124381899435850871, 33), (124679234273622845, 33), (124976657101893526, 33),
  (125274169656714186, 33), (125571773669756293, 33), (125869470868414701, 33), (126167262975909935, 33),
  (126465151711389210, 33), (126763138790026570, 33), (127061225923122038, 33), (127359414818199677, 33),
  (127657707179104776, 33), (127956104706100156, 33), (128254609095961356, 33), (128553222042071101, 33),
  (128851945234512898, 33), (129150780360163588, 33), (129449729102785191, 33), (129748793143115928, 33),
  (130047974158960416, 33), (130347273825278961, 33), (130646693814276255, 33), (130946235795489186, 33),
  (131245901435873957, 33), (131545692399892392, 33), (131845610349597702, 33), (132145656944719360, 33),
  (132445833842747460, 33), (132746142699016212, 33), (133046585166787048, 33), (133347162897330828, 33),
  (133647877540009571, 33), (133948730742357598, 33), (134249724150161959, 33), (134550859407542293, 33),
  (134852138157030313, 33), (135153562039648496, 33), (135455132694988272, 33), (135756851761287856, 33),
  (136058720875509308, 33), (136360741673415348, 33), (136662915789645431, 33), (136965244857791481, 33),
  (137267730510473198, 33), (137570374379412732, 33), (137873178095509130, 33), (138176143288912096, 33),
  (138479271589095575, 33), (138782564624930773, 33), (139086024024758832, 33), (139389651416463058, 33),
  (139693448427540782, 33), (139997416685174999, 33), (140301557816305364, 33), (140605873447699093, 33),
  (140910365206021393, 33), (141215034717905595, 33), (141519883610022969, 33), (141824913509152195, 33),
  (142130126042248606, 33), (142435522836513119, 33), (142741105519460741, 33), (143046875718989028, 33),
  (143352835063446169, 33), (143658985181698763, 33), (143965327703199430, 33), (144271864258054142, 33),
  (144578596477089444, 33), (144885525991919190, 33), (145192654435011325, 33), (145499983439754442, 33),
  (145807514640523901, 33), (146115249672748092, 33), (146423190172974259, 33), (146731337778934339, 33),
  (147039694129610493, 33), (147348260865300626, 33), (147657039627683545, 33), (147966032059884311, 33),
  (148275239806539145, 33), (148584664513860290, 33), (148894307829700942, 33), (149204171403619915, 33),
  (149514256886946076, 33), (149824565932843012, 33), (150135100196373369, 33), (150445861334563241, 33),
  (150756851006466296, 33), (151068070873228159, 33), (151379522598150462, 33), (151691207846754890, 33),
  (152003128286847420, 33), (152315285588582176, 33), (152627681424525467, 33), (152940317469719863, 33),
  (153253195401748017, 33), (153566316900796759, 33), (153879683649720993, 33), (154193297334107699, 33),
  (154507159642339896, 33), (154821272265660695, 33), (155135636898237243, 33), (155450255237224965, 33),
  (155765128982831561, 33), (156080259838381226, 33), (156395649510378793, 33), (156711299708574196, 33),
  (157027212146026667, 33), (157343388539169247, 33), (157659830607873276, 33), (157976540075513081, 33),
  (158293518669030589, 33), (158610768119000158, 33), (158928290159693563, 33), (159246086529144928, 33),
  (159564158969216028, 33), (159882509225661421, 33), (160201139048193995, 33), (160520050190550519, 33),
  (160839244410557318, 33), (161158723470196162, 33), (161478489135670363, 33), (161798543177470937, 33),
  (162118887370442995, 33), (162439523493852323, 33), (162760453331452145, 33), (163081678671550073, 33),
  (163403201307075263, 33), (163725023035645833, 33), (164047145659636362, 33), (164369570986245761, 33),
  (164692300827565281, 33), (165015337000646875, 33), (165338681327571583, 33), (165662335635518412, 33),
  (165986301756833258, 33), (166310581529098375, 33), (166635176795201728, 33), (166960089403406969, 33),
  (167285321207423532, 33), (167610874066477009, 33), (167936749845379951, 33), (168262950414602768, 33),
  (168589477650345218, 33), (168916333434607899, 33), (169243519655264330, 33), (169571038206133233, 33),
  (169898890987051176, 33), (170227079903945674, 33), (170555606868908324, 33), (170884473800268816, 33),
  (171213682622668786, 33), (171543235267136388, 33), (171873133671161165, 33), (172203379778769235, 33),
  (172533975540599046, 33), (172864922913977231, 33), (173196223862995301, 33), (173527880358586382, 33),
  (173859894378602652, 33), (174192267907892993, 33), (174525002938381232, 33), (174858101469144861, 33),
  (175191565506494142, 33), (175525397064051581, 33), (175859598162832201, 33), (176194170831323905, 33),
  (176529117105568701, 33), (176864439029244107, 33), (177200138653745312, 33), (177536218038267738, 33),
  (177872679249890141, 33), (178209524363658278, 33), (178546755462669095, 33), (178884374638155479, 33),
  (179222383989571556, 33), (179560785624678622, 33), (179899581659631581, 33), (180238774219065934, 33),
  (180578365436185542, 33), (180918357452850858, 33), (181258752419667768, 33), (181599552496077107, 33),
  (181940759850444856, 33), (182282376660152812, 33), (182624405111690199, 33), (182966847400745663, 33),
  (183309705732300040, 33), (183652982320719913, 33), (183996679389851725, 33), (184340799173116672, 33),
  (184685343913606275, 33), (185030315864178671, 33), (185375717287555763, 33), (185721550456420849, 33),
  (186067817653517369, 33), (186414521171748110, 33), (186761663314275339, 33), (187109246394621707, 33),
  (187457272736772007, 33), (187805744675275556, 33), (188154664555349660, 33), (188504034732983767, 33),
  (188853857575044459, 33), (189204135459381333, 33), (189554870774933866, 33), (189906065921838924, 33),
  (190257723311539424, 33), (190609845366893743, 33), (190962434522286032, 33), (191315493223737720, 33),
  (191669023929019577, 33), (192023029107765020, 33), (192377511241584419, 33), (192732472824180073, 33),
  (193087916361462647, 33), (193443844371668189, 33), (193800259385476483, 33), (194157163946130322, 33),
  (194514560609555776, 33), (194872451944483782, 33), (195230840532572437, 33), (195589728968530828, 33),
  (195949119860243622, 33), (196309015828896961, 33), (196669419509105496, 33), (197030333549040576, 33),
  (197391760610559598, 33), (197753703369336583, 33), (198116164514993922, 33), (198479146751235394, 33),
  (198842652795980423, 33), (199206685381499634, 33), (199571247254551578, 33), (199936341176520879, 33),
  (200301969923557614, 33), (200668136286718152, 33), (201034843072107173, 33), (201402093101021140, 33),
  (201769889210093206, 33), (202138234251439572, 33), (202507131092806976, 33), (202876582617722087, 33),
  (203246591725642028, 33), (203617161332106405, 33), (203988294368891085, 33), (204359993784163330, 33),
  (204732262542638388, 33), (205105103625737854, 33), (205478520031749589, 33), (205852514775989139, 33),
  (206227090890962883, 33), (206602251426532805, 33), (206977999450083069, 33), (207354338046688067, 33),
  (207731270319282422, 33), (208108799388832639, 33), (208486928394510603, 33), (208865660493868734, 33),
  (209244998863017130, 33), (209624946696802572, 33), (210005507208989242, 33), (210386683632441540, 33),
  (210768479219308660, 33), (211150897241211321, 33), (211533940989430357, 33), (211917613775097275, 33),
  (212301918929386988, 33), (212686859803712680, 33), (213072439769922390, 33), (213458662220498338, 33),
  (213845530568757797, 33), (214233048249056612, 33), (214621218716994703, 33), (215010045449623903, 33),
  (215399531945658094, 33), (215789681725685650, 33), (216180498332384214, 33), (216571985330737896, 33),
  (216964146308256882, 33), (217356984875199440, 33), (217750504664796629, 33), (218144709333479190, 33),
  (218539602561107330, 33), (218935188051202992, 33), (219331469531184587, 33), (219728450752604765, 33),
  (220126135491390574, 33), (220524527548086525, 33), (220923630748100497, 33), (221323448941952326, 33),
  (221723986005525452, 33), (222125245840321300, 33), (222527232373716823, 33), (222929949559224970, 33),
  (223333401376757968, 33), (223737591832894256, 33), (224142524961148027, 33), (224548204822242125, 33),
  (224954635504384391, 33), (225361821123546973, 33), (225769765823749227, 33), (226178473777343781, 33),
  (226587949185306291, 33), (226998196277528356, 33), (227409219313114428, 33), (227821022580681770, 33),
  (228233610398664470, 33), (228646987115621043, 33), (229061157110545689, 33), (229476124793183588, 33),
  (229891894604349848, 33), (230308471016252347, 33), (230725858532818961, 33), (231144061690028342, 33),
  (231563085056245286, 33), (231982933232559793, 33), (232403610853130764, 33), (232825122585533890, 33),
  (233247473131113825, 33), (233670667225341053, 33), (234094709638172788, 33), (234519605174419153, 33),
  (234945358674113256, 33), (235371975012886739, 33), (235799459102349560, 33), (236227815890474861, 33),
  (236657050361988964, 33), (237087167538766144, 33), (237518172480228528, 33), (237950070283751580, 33),
  (238382866085074297, 33), (238816565058715145, 33), (239251172418393403, 33), (239686693417456089, 33),
  (240123133349310156, 33), (240560497547861096, 33), (240998791387956480, 33), (241438020285836399, 33),
  (241878189699588878, 33), (242319305129612399, 33), (242761372119083744, 33), (243204396254432841, 33),
  (243648383165823523, 33), (244093338527641192, 33), (244539268058986699, 33), (244986177524177365, 33),
  (245434072733254616, 33), (245882959542498662, 33), (246332843854950086, 33), (246783731620939020, 33),
  (247235628838621027, 33), (247688541554521267, 33), (248142475864085225, 33), (248597437912238105, 33),
  (249053433893951384, 33), (249510470054817500, 33), (249968552691632863, 33), (250427688152988815, 33),
  (250887882839871114, 33), (251349143206267946, 33), (251811475759786376, 33), (252274887062278155, 33),
  (252739383730473822, 33), (253204972436626459, 33), (253671659909164476, 33), (254139452933354007, 33),
  (254608358351970773, 33), (255078383065981757, 33), (255549534035237082, 33), (256021818279171509, 33),
  (256495242877517024, 33), (256969814971025037, 33), (257445541762200125, 33), (257922430516043926, 33),
  (258400488560810722, 33), (258879723288773863, 33), (259360142157003882, 33), (259841752688158292, 33),
  (260324562471283367, 33), (260808579162627749, 33), (261293810486468685, 33), (261780264235950829, 33),
  (262267948273937821, 33), (262756870533876631, 33), (263247039020675708, 33), (263738461811596195, 33),
  (264231147057157200, 33), (264725102982055158, 33), (265220337886097110, 33), (265716860145149056, 33),
  (266214678212098810, 33), (266713800617834190, 33), (267214235972236587, 33), (267715992965190163, 33),
  (268219080367607127, 33), (268723507032469422, 33), (269229281895886985, 33), (269736413978172915, 33),
  (270244912384935942, 33), (270754786308190756, 33), (271266045027485926, 33), (271778697911050459, 33),
  (272292754416958999, 33), (272808224094315908, 33), (273325116584458868, 33), (273843441622182455, 33),
  (274363209036981680, 33), (274884428754316433, 33), (275407110796896489, 33), (275931265285988602, 33),
  (276456902442744944, 33), (276984032589554083, 33), (277512666151414781, 33), (278042813657333164, 33),
  (278574485741743071, 33), (279107693145951342, 33), (279642446719607267, 33), (280178757422197485, 33),
  (280716636324566602, 33), (281256094610464204, 33), (281797143578118288, 33), (282339794641836546, 33),
  (282884059333635371, 33), (283429949304897444, 33), (283977476328058667, 33), (284526652298324477, 33),
  (285077489235416830, 33), (285629999285352485, 33), (286184194722252411, 33), (286740087950184267, 33),
  (287297691505037474, 33), (287857018056432360, 33), (288418080409664058, 33), (288980891507681219, 33),
  (289545464433101301, 33), (290111812410262747, 33), (290679948807314326, 33), (291249887138343927, 33),
  (291821641065545760, 33), (292395224401428764, 33), (292970651111065558, 33), (293547935314383834, 33),
  (294127091288500741, 33), (294708133470101354, 33), (295291076457862152, 33), (295875935014920594, 33),
  (296462724071391983, 33), (297051458726934297, 33), (297642154253362576, 33), (298234826097313640, 33),
  (298829489882962880, 33), (299426161414793356, 33), (300024856680419229, 33), (300625591853465104, 33),
  (301228383296501083, 33), (301833247564036990, 33), (302440201405575009, 33), (303049261768724115, 33),
  (303660445802376121, 33), (304273770859946023, 33), (304889254502677578, 33), (305506914503015827, 33),
  (306126768848048258, 33), (306748835743016518, 33), (307373133614899761, 33), (307999681116072110, 33),
  (308628497128035786, 33), (309259600765231606, 33), (309893011378929151, 33), (310528748561198436, 33),
  (311166832148964997, 33), (311807282228150819, 33), (312450119137903079, 33), (313095363474912859, 33),
  (313743036097826702, 33), (314393158131752492, 33), (315045750972863044, 33), (315700836293099297, 33),
  (316358436044975803, 33), (317018572466491834, 33), (317681268086149917, 33), (318346545728085253, 33),
  (319014428517309080, 33), (319684939885068437, 33), (320358103574326237, 33), (321033943645364003, 33),
  (321712484481511557, 33), (322393750795006195, 33), (323077767632985751, 33), (323764560383618450, 33),
  (324454154782374051, 33), (325146576918439408, 33), (325841853241283321, 33), (326540010567374278, 33),
  (327241076087055526, 33), (327945077371581957, 33), (328652042380323591, 33), (329361999468139896, 33),
  (330074977392930619, 33), (330791005323367361, 33), (331510112846811718, 33), (332232329977425218, 33),
  (332957687164476910, 33), (333686215300853697, 33), (334417945731780403, 33), (335152910263755103, 33),
  (335891141173706168, 33), (336632671218378088, 33), (337377533643952612, 33), (338125762195912371, 33),
  (338877391129154568, 33), (339632455218362083, 33), (340390989768640078, 33), (341153030626426683, 33),
  (341918614190685159, 33), (342687777424387839, 33), (343460557866299685, 33), (344236993643071775, 33),
  (345017123481654131, 33), (345800986722038182, 33), (346588623330339684, 33), (347380073912232226, 33),
  (348175379726744167, 33), (348974582700429235, 33), (349777725441924170, 33), (350584851256905820, 33),
  (351396004163460519, 33), (352211228907880337, 33), (353030570980899513, 33), (353854076634387146, 33),
  (354681792898509997, 33), (355513767599382910, 33), (356350049377222915, 33), (357190687705024226, 33),
  (358035732907772433, 33), (358885236182216900, 33), (359739249617220422, 33), (360597826214707033, 33),
  (361461019911228816, 33), (362328885600174218, 33), (363201479154640379, 33), (364078857450993939, 33),
  (364961078393145380, 33), (365848200937562515, 33), (366740285119050961, 33), (367637392077329333, 33),
  (368539584084429687, 33), (369446924572953038, 33), (370359478165213282, 33), (371277310703302660, 33),
  (372200489280113960, 33), (373129082271356780, 33), (374063159368605721, 33), (375002791613421188, 33),
  (375948051432584648, 33), (376899012674492385, 33), (377855750646753940, 33), (378818342155043416, 33),
  (379786865543253576, 33), (380761400735006893, 33), (381742029276577174, 33), (382728834381281573, 33),
  (383721900975402503, 33), (384721315745703930, 33), (385727167188608917, 33), (386739545661108118, 33),
  (387758543433474275, 33), (388784254743858197, 33), (389816775854849397, 33), (390856205112085891, 33),
  (391902643005002902, 33), (392956192229815509, 33), (394016957754834067, 33), (395085046888217494, 33),
  (396160569348273844, 33), (397243637336424719, 33), (398334365612955237, 33), (399432871575678552, 33),
  (400539275341650411, 33), (401653699832077006, 33), (402776270860567218, 33), (403907117224888621, 33),
  (405046370802395843, 33), (406194166649308659, 33), (407350643104028759, 33), (408515941894693588, 33),
  (409690208251177187, 33), (410873591021761983, 33), (412066242794716309, 33), (413268320025027761, 33),
  (414479983166557671, 33), (415701396809897257, 33), (416932729826223068, 33), (418174155517468832, 33),
  (419425851773149282, 33), (420688001234192956, 33), (421960791464163570, 33), (423244415128274004, 33),
  (424539070180622584, 33), (425844960060109453, 33), (427162293895520534, 33), (428491286720299892, 33),
  (429832159697564367, 33), (431185140355953613, 33), (432550462836947651, 33), (433928368154328449, 33),
  (435319104466508757, 33), (436722927362501830, 33), (438140100162361367, 33), (439570894232979693, 33),
  (441015589320196769, 33), (442474473898242448, 33), (443947845537609534, 33), (445436011292537968, 33),
  (446939288109378534, 33), (448458003257202595, 33), (449992494782128535, 33), (451543111986951658, 33),
  (453110215937788517, 33), (454694179999583812, 33), (456295390402477505, 33), (457914246841191694, 33),
  (459551163109777973, 33), (461206567774257927, 33), (462880904885908994, 33), (464574634738177881, 33),
  (466288234670469284, 33), (468022199922335617, 33), (469777044541914934, 33), (471553302352804213, 33),
  (473351527983943201, 33), (475172297967502213, 33), (477016211910241770, 33), (478883893744324138, 33),
  (480775993064140985, 33), (482693186556356576, 33), (484636179531083447, 33), (486605707562900925, 33),
  (488602538251317563, 33), (490627473111269884, 33), (492681349605364941, 33), (494765043330822740, 33),
  (496879470375476390, 33), (499025589858770085, 33), (501204406675475713, 33), (503416974461862417, 33),
  (505664398806332965, 33), (507947840729125887, 33), (510268520458620140, 33), (512627721535126601, 33),
  (515026795276867394, 33), (517467165647217501, 33), (519950334567288038, 33), (522477887723691122, 33),
  (525051500927957739, 33), (527672947091743395, 33), (530344103890830216, 33), (533066962201238118, 33),
  (535843635402765046, 33), (538676369659293412, 33), (541567555301633775, 33), (544519739457988136, 33),
  (547535640099899782, 33), (550618161698517219, 33), (553770412718034299, 33), (556995725211362223, 33),
  (560297676828819863, 33), (563680115605603882, 33), (567147187960177049, 33), (570703370416234636, 33),
  (574353505659037883, 33), (578102843657118577, 33), (581957088728395689, 33), (585922453613072497, 33),
  (590005721844059276, 33), (594214319991934545, 33), (598556401722680686, 33), (603040946065420216, 33),
  (607677872874969880, 33), (612478179232220788, 33), (617454101511974155, 33), (622619309143385482, 33),
  (627989137805828684, 33), (633580872104132808, 33), (639414090884648266, 33), (645511092628449050, 33),
  (651897424297094042, 33), (658602545376047753, 33), (665660670840558245, 33), (673111854210230591, 33),
  (681003397732669891, 33), (689391715925600510, 33), (698344839449975845, 33), (707945842906517828, 33),
  (718297638387021814, 33), (729529844515185979, 33), (741808911905442455, 33), (755353552220360039, 33),
  (770459195679784070, 33), (787538659776905717, 33), (807193901521411435, 33), (830352530063857217, 33),
  (858554763842056565, 33), (894646544346688949, 33), (944845067108994447, 33), (102764069967626247, 32)]

theorem expoWLit_length : expoWLit.length = 1024 := by decide +kernel

/-- `expo.go` 305-562: `expoW`. -/
def expoW : Vector F64 1024 :=
  ⟨(expoWLit.map fun d => F64.ofDec d.1 d.2).toArray, by rw [List.size_toArray, List.length_map, expoWLit_length]⟩

/-- `expo.go` 564-821: the constants of `expoF`. -/
def expoFLit : List (Nat × Nat) := [
  (100000000000000000, 17), (968945415010992406, 18), (949889196388417734, 18), (935253503977446332, 18),
  (923022980182970576, 18), (912343913742377999, 18), (902766566511869151, 18), (894021426632391591, 18),
  (885932557172777080, 18), (878377875569187450, 18), (871268699374791011, 18), (864538272175399025, 18),
  (858134889483703867, 18), (852017559763211696, 18), (846153146776933429, 18), (840514419977236971, 18),
  (835078684225500689, 18), (829826791867500857, 18), (824742414617106068, 18), (819811496498238590, 18),
  (815021835792814509, 18), (810362760725640840, 18), (805824874458240470, 18), (801399852137199997, 18),
  (797080277593054665, 18), (792859510629635666, 18), (788731578189985183, 18), (784691084357616253, 18),
  (780733135361913133, 18), (776853276643614366, 18), (773047439694789729, 18), (769311896882065360, 18),
  (765643222836894122, 18), (762038261284015528, 18), (758494096401405415, 18), (755008027978255836, 18),
  (751577549773686071, 18), (748200330586717310, 18), (744874197634032620, 18), (741597121901076739, 18),
  (738367205187811071, 18), (735182668615751433, 18), (732041842399939080, 18), (728943156719906393, 18),
  (725885133548809014, 18), (722866379320717622, 18), (719885578333421372, 18), (716941486798615135, 18),
  (714032927463546851, 18), (711158784738500138, 18), (708318000273201132, 18), (705509568932652931, 18),
  (702732535129217184, 18), (699985989473171366, 18), (697269065708607139, 18), (694580937905535545, 18),
  (691920817882511030, 18), (689287952837074336, 18), (686681623163910348, 18), (684101140442869071, 18),
  (681545845580976417, 18), (679015107094277037, 18), (676508319516868628, 18), (674024901925812103, 18),
  (671564296571774522, 18), (669125967606291172, 18), (666709399897449817, 18), (664314097926606451, 18),
  (661939584759462352, 18), (659585401085470702, 18), (657251104320109802, 18), (654936267765070079, 18),
  (652640479821855801, 18), (650363343254706905, 18), (648104474499118455, 18), (645863503012554574, 18),
  (643640070664256547, 18), (641433831161305923, 18), (639244449508346468, 18), (637071601498584217, 18),
  (634914973233881241, 18), (632774260671937538, 18), (630649169198716941, 18), (628539413224417198, 18),
  (626444715801421137, 18), (624364808262785287, 18), (622299429879931032, 18), (620248327538310606, 18),
  (618211255429903850, 18), (616187974761494450, 18), (614178253477745129, 18), (612181865998166153, 18),
  (610198592967134523, 18), (608228221016181014, 18), (606270542537818757, 18), (604325355470234138, 18),
  (602392463092211172, 18), (600471673827700170, 18), (598562801059483118, 18), (596665662951422315, 18),
  (594780082278816513, 18), (592905886266414717, 18), (591042906433671189, 18), (589190978446849645, 18),
  (587349941977609258, 18), (585519640567729871, 18), (583699921499652996, 18), (581890635672535850, 18),
  (580091637483535205, 18), (578302784714053386, 18), (576523938420695048, 18), (574754962830699268, 18),
  (572995725241623455, 18), (571246095925071362, 18), (569505948034266130, 18), (567775157515283291, 18),
  (566053603021768215, 18), (564341165832971670, 18), (562637729774947970, 18), (560943181144766934, 18),
  (559257408637601205, 18), (557580303276555500, 18), (555911758345113416, 18), (554251669322083917, 18),
  (552599933818934130, 18), (550956451519404422, 18), (549321124121302184, 18), (547693855280382058, 18),
  (546074550556219340, 18), (544463117359992643, 18), (542859464904093314, 18), (541263504153483788, 18),
  (539675147778732156, 18), (538094310110651897, 18), (536520907096481925, 18), (534954856257540912, 18),
  (533396076648298023, 18), (531844488816802352, 18), (530300014766414196, 18), (528762577918789112, 18),
  (527232103078063563, 18), (525708516396194092, 18), (524191745339406934, 18), (522681718655712557, 18),
  (521178366343446720, 18), (519681619620796287, 18), (518191410896273408, 18), (516707673740102957, 18),
  (515230342856487833, 18), (513759354056719575, 18), (512294644233103558, 18), (510836151333668664, 18),
  (509383814337632579, 18), (507937573231595163, 18), (506497368986433938, 18), (505063143534877135, 18),
  (503634839749728336, 18), (502212401422722166, 18), (500795773243986830, 18), (499384900782093522, 18),
  (497979730464671533, 18), (496580209559570440, 18), (495186286156549860, 18), (493797909149479353, 18),
  (492415028219030659, 18), (491037593815846496, 18), (489665557144169317, 18), (488298870145914887, 18),
  (486937485485176458, 18), (485581356533144659, 18), (484230437353430188, 18), (482884682687775846, 18),
  (481544047942145836, 18), (480208489173179431, 18), (478877963074997970, 18), (477552426966354582, 18),
  (476231838778113925, 18), (474916157041053999, 18), (473605340873978209, 18), (472299349972128746, 18),
  (470998144595892287, 18), (469701685559788251, 18), (468409934221731883, 18), (467122852472563244, 18),
  (465840402725834490, 18), (464562547907847234, 18), (463289251447933093, 18), (462020477268969720, 18),
  (460756189778125824, 18), (459496353857828055, 18), (458240934856943449, 18), (456989898582171483, 18),
  (455743211289639016, 18), (454500839676692969, 18), (453262750873884734, 18), (452028912437140884, 18),
  (450799292340115010, 18), (449573858966715534, 18), (448352581103804715, 18), (447135427934063967, 18),
  (445922369029020382, 18), (444713374342231516, 18), (443508414202621992, 18), (442307459307969664, 18),
  (441110480718536202, 18), (439917449850838471, 18), (438728338471557067, 18), (437543118691578137, 18),
  (436361762960164989, 18), (435184244059256042, 18), (434010535097886119, 18), (432840609506727148, 18),
  (431674441032745770, 18), (430512003733974524, 18), (429353271974393824, 18), (428198220418921693, 18),
  (427046824028508742, 18), (425899058055335289, 18), (424754898038108619, 18), (423614319797457339, 18),
  (422477299431420539, 18), (421343813311029547, 18), (420213838075979895, 18), (419087350630390820, 18),
  (417964328138651198, 18), (416844748021348355, 18), (415728587951278983, 18), (414615825849539543, 18),
  (413506439881694277, 18), (412400408454018874, 18), (411297710209818645, 18), (410198324025818073, 18),
  (409102229008621587, 18), (408009404491242844, 18), (406919830029700891, 18), (405833485399682559, 18),
  (404750350593268193, 18), (403670405815720723, 18), (402593631482335013, 18), (401520008215347501, 18),
  (400449516840904074, 18), (399382138386084551, 18), (398317854075983246, 18), (397256645330843650, 18),
  (396198493763246673, 18), (395143381175350250, 18), (394091289556180446, 18), (393042201078971531, 18),
  (391996098098555179, 18), (390952963148796961, 18), (389912778940079030, 18), (388875528356828593, 18),
  (387841194455090355, 18), (386809760460143037, 18), (385781209764157529, 18), (384755525923897557, 18),
  (383732692658460162, 18), (382712693847056473, 18), (381695513526831454, 18), (380681135890721389, 18),
  (379669545285349075, 18), (378660726208955134, 18), (377654663309365535, 18), (376651341381993687, 18),
  (375650745367876959, 18), (374652860351746719, 18), (373657671560131244, 18), (372665164359490708, 18),
  (371675324254383987, 18), (370688136885665653, 18), (369703588028713948, 18), (368721663591687843, 18),
  (367742349613813302, 18), (366765632263697905, 18), (365791497837673507, 18), (364819932758165710, 18),
  (363850923572090590, 18), (362884456949277345, 18), (361920519680916708, 18), (360959098678034496, 18),
  (360000180969989703, 18), (359043753702997182, 18), (358089804138673640, 18), (357138319652607006, 18),
  (356189287732948778, 18), (355242695979028411, 18), (354298532099989794, 18), (353356783913449435, 18),
  (352417439344175298, 18), (351480486422786675, 18), (350545913284474264, 18), (349613708167740067, 18),
  (348683859413156938, 18), (347756355462147226, 18), (346831184855780184, 18), (345908336233588021, 18),
  (344987798332399676, 18), (344069559985192897, 18), (343153610119963259, 18), (342239937758610557, 18),
  (341328532015841957, 18), (340419382098091694, 18), (339512477302456928, 18), (338607807015649243, 18),
  (337705360712962255, 18), (336805127957254202, 18), (335907098397945525, 18), (335011261770031654, 18),
  (334117607893109569, 18), (333226126670419509, 18), (332336808087899949, 18), (331449642213256734, 18),
  (330564619195045539, 18), (329681729261767698, 18), (328800962720978918, 18), (327922309958411151, 18),
  (327045761437106564, 18), (326171307696564106, 18), (325298939351898575, 18), (324428647093010780, 18),
  (323560421683770361, 18), (322694253961209598, 18), (321830134834728498, 18), (320968055285311527, 18),
  (320108006364754560, 18), (319249979194903444, 18), (318393964966902365, 18), (317539954940453117, 18),
  (316687940443084404, 18), (315837912869431081, 18), (314989863680523841, 18), (314143784403087600, 18),
  (313299666628850726, 18), (312457502013862465, 18), (311617282277820484, 18), (310778999203406958, 18),
  (309942644635634146, 18), (309108210481198020, 18), (308275688707841278, 18), (307445071343724619, 18),
  (306616350476806021, 18), (305789518254228898, 18), (304964566881717913, 18), (304141488622982903, 18),
  (303320275799130790, 18), (302500920788084882, 18), (301683416024012219, 18), (300867753996757858, 18),
  (300053927251287211, 18), (299241928387134759, 18), (298431750057860934, 18), (297623384970514993, 18),
  (296816825885105495, 18), (296012065614077335, 18), (295209097021795430, 18), (294407913024035184, 18),
  (293608506587479279, 18), (292810870729220685, 18), (292014998516272550, 18), (291220883065083591, 18),
  (290428517541060027, 18), (289637895158093517, 18), (288849009178094529, 18), (288061852910532212, 18),
  (287276419711979702, 18), (286492702985664704, 18), (285710696181026347, 18), (284930392793277143, 18),
  (284151786362970060, 18), (283374870475571639, 18), (282599638761039607, 18), (281826084893406104, 18),
  (281054202590365954, 18), (280283985612869713, 18), (279515427764721880, 18), (278748522892183881, 18),
  (277983264883581827, 18), (277219647668919100, 18), (276457665219493387, 18), (275697311547518642, 18),
  (274938580705751112, 18), (274181466787120187, 18), (273425963924363691, 18), (272672066289666837, 18),
  (271919768094306458, 18), (271169063588298620, 18), (270419947060050680, 18), (269672412836017727, 18),
  (268926455280362187, 18), (268182068794618533, 18), (267439247817361059, 18), (266697986823875688, 18),
  (265958280325835905, 18), (265220122870982233, 18), (264483509042805098, 18), (263748433460231968, 18),
  (263014890777317656, 18), (262282875682938232, 18), (261552382900488434, 18), (260823407187582790, 18),
  (260095943335759638, 18), (259369986170189082, 18), (258645530549383607, 18), (257922571364912756, 18),
  (257201103541120246, 18), (256481122034844689, 18), (255762621835143422, 18), (255045597963019399, 18),
  (254330045471150956, 18), (253615959443624861, 18), (252903334995672191, 18), (252192167273407042, 18),
  (251482451453568345, 18), (250774182743264407, 18), (250067356379720329, 18), (249361967630027936, 18),
  (248658011790898997, 18), (247955484188420588, 18), (247254380177813426, 18), (246554695143192754, 18),
  (245856424497331832, 18), (245159563681428050, 18), (244464108164871408, 18), (243770053445015733, 18),
  (243077395046952194, 18), (242386128523285255, 18), (241696249453911050, 18), (241007753445798334, 18),
  (240320636132771354, 18), (239634893175295433, 18), (238950520260264615, 18), (238267513100791695, 18),
  (237585867436000298, 18), (236905579030819380, 18), (236226643675779668, 18), (235549057186812488, 18),
  (234872815405050478, 18), (234197914196630524, 18), (233524349452498781, 18), (232852117088217542, 18),
  (232181213043774398, 18), (231511633283393192, 18), (230843373795346946, 18), (230176430591772813, 18),
  (229510799708488894, 18), (228846477204812881, 18), (228183459163382785, 18), (227521741689979184, 18),
  (226861320913349623, 18), (226202192985034550, 18), (225544354079195181, 18), (224887800392443160, 18),
  (224232528143671755, 18), (223578533573888932, 18), (222925812946052210, 18), (222274362544904819, 18),
  (221624178676814054, 18), (220975257669610708, 18), (220327595872430559, 18), (219681189655557219, 18),
  (219036035410266589, 18), (218392129548672931, 18), (217749468503576488, 18), (217108048728312547, 18),
  (216467866696602063, 18), (215828918902403716, 18), (215191201859767589, 18), (214554712102690087, 18),
  (213919446184970413, 18), (213285400680068571, 18), (212652572180964394, 18), (212020957300018492, 18),
  (211390552668834081, 18), (210761354938120510, 18), (210133360777557926, 18), (209506566875663353, 18),
  (208880969939658101, 18), (208256566695336348, 18), (207633353886935185, 18), (207011328277005746, 18),
  (206390486646285676, 18), (205770825793572948, 18), (205152342535600635, 18), (204535033706913116, 18),
  (203918896159743457, 18), (203303926763891835, 18), (202690122406605278, 18), (202077479992458509, 18),
  (201465996443235956, 18), (200855668697814765, 18), (200246493712049251, 18), (199638468458656043, 18),
  (199031589927100627, 18), (198425855123484901, 18), (197821261070435711, 18), (197217804806994551, 18),
  (196615483388508316, 18), (196014293886520946, 18), (195414233388666342, 18), (194815298998562036, 18),
  (194217487835704111, 18), (193620797035362863, 18), (193025223748479718, 18), (192430765141564847, 18),
  (191837418396596043, 18), (191245180710918228, 18), (190654049297144190, 18), (190064021383056059, 18),
  (189475094211507850, 18), (188887265040328739, 18), (188300531142227445, 18), (187714889804697388, 18),
  (187130338329922818, 18), (186546874034685645, 18), (185964494250273338, 18), (185383196322387617, 18),
  (184802977611053965, 18), (184223835490531979, 18), (183645767349226580, 18), (183068770589600083, 18),
  (182492842628085017, 18), (181917980894997805, 18), (181344182834453138, 18), (180771445904279376, 18),
  (180199767575934450, 18), (179629145334422785, 18), (179059576678212762, 18), (178491059119155221, 18),
  (177923590182402391, 18), (177357167406327926, 18), (176791788342447298, 18), (176227450555339282, 18),
  (175664151622567960, 18), (175101889134605421, 18), (174540660694755351, 18), (173980463919077122, 18),
  (173421296436310768, 18), (172863155887802461, 18), (172306039927430904, 18), (171749946221534167, 18),
  (171194872448837326, 18), (170640816300380777, 18), (170087775479449227, 18), (169535747701501122, 18),
  (168984730694099083, 18), (168434722196840664, 18), (167885719961290036, 18), (167337721750909912, 18),
  (166790725340994539, 18), (166244728518602974, 18), (165699729082493225, 18), (165155724843056739, 18),
  (164612713622253659, 18), (164070693253548755, 18), (163529661581847757, 18), (162989616463434350, 18),
  (162450555765907778, 18), (161912477368121061, 18), (161375379160119653, 18), (160839259043080829, 18),
  (160304114929253477, 18), (159769944741898540, 18), (159236746415230057, 18), (158704517894356606, 18),
  (158173257135223455, 18), (157642962104555084, 18), (157113630779798369, 18), (156585261149066346, 18),
  (156057851211082205, 18), (155531398975124219, 18), (155005902460970874, 18), (154481359698846660, 18),
  (153957768729368255, 18), (153435127603491456, 18), (152913434382458246, 18), (152392687137744731, 18),
  (151872883951009285, 18), (151354022914041347, 18), (150836102128710653, 18), (150319119706916915, 18),
  (149803073770540085, 18), (149287962451390921, 18), (148773783891162192, 18), (148260536241380331, 18),
  (147748217663357356, 18), (147236826328143555, 18), (146726360416480378, 18), (146216818118753922, 18),
  (145708197634948772, 18), (145200497174602400, 18), (144693714956759950, 18), (144187849209929358, 18),
  (143682898172037166, 18), (143178860090384524, 18), (142675733221603707, 18), (142173515831615110, 18),
  (141672206195584655, 18), (141171802597881535, 18), (140672303332036508, 18), (140173706700700479, 18),
  (139676011015603591, 18), (139179214597514728, 18), (138683315776201327, 18), (138188312890389714, 18),
  (137694204287725830, 18), (137200988324736262, 18), (136708663366789746, 18), (136217227788059086, 18),
  (135726679971483494, 18), (135237018308731111, 18), (134748241200162266, 18), (134260347054792839, 18),
  (133773334290258061, 18), (133287201332776828, 18), (132801946617116334, 18), (132317568586556911, 18),
  (131834065692857549, 18), (131351436396221627, 18), (130869679165262903, 18), (130388792476972104, 18),
  (129908774816683836, 18), (129429624678043642, 18), (128951340562975747, 18), (128473920981650974, 18),
  (127997364452455020, 18), (127521669501957147, 18), (127046834664879288, 18), (126572858484065381, 18),
  (126099739510451114, 18), (125627476303034058, 18), (125156067428844164, 18), (124685511462914539, 18),
  (124215806988252561, 18), (123746952595811477, 18), (123278946884462240, 18), (122811788460965687, 18),
  (122345475939945103, 18), (121880007943859128, 18), (121415383102975005, 18), (120951600055342126, 18),
  (120488657446765998, 18), (120026553930782431, 18), (119565288168632225, 18), (119104858829236049, 18),
  (118645264589169755, 18), (118186504132639911, 18), (117728576151459846, 18), (117271479345025839, 18),
  (116815212420293774, 18), (116359774091756102, 18), (115905163081419044, 18), (115451378118780271, 18),
  (114998417940806799, 18), (114546281291913271, 18), (114094966923940527, 18), (113644473596134554, 18),
  (113194800075125751, 18), (112745945134908446, 18), (112297907556820870, 18), (111850686129525353, 18),
  (111404279648988899, 18), (110958686918464083, 18), (110513906748470225, 18), (110069937956774958, 18),
  (109626779368376101, 18), (109184429815483833, 18), (108742888137503227, 18), (108302153181017047, 18),
  (107862223799768980, 18), (107423098854647084, 18), (106984777213667628, 18), (106547257751959223, 18),
  (106110539351747316, 18), (105674620902338937, 18), (105239501300107896, 18), (104805179448480196, 18),
  (104371654257919791, 18), (103938924645914740, 18), (103506989536963606, 18), (103075847862562214, 18),
  (102645498561190804, 18), (102215940578301370, 18), (101787172866305481, 18), (101359194384562340, 18),
  (100932004099367173, 18), (100505600983940041, 18), (100079984018414864, 18), (996551521898288717, 19),
  (992311044921123514, 19), (988078399260787221, 19), (983853574994150021, 19), (979636562266725242, 19),
  (975427351292580541, 19), (971225932354252697, 19), (967032295802665309, 19), (962846432057049978, 19),
  (958668331604871221, 19), (954497985001754728, 19), (950335382871419082, 19), (946180515905610808, 19),
  (942033374864043455, 19), (937893950574339580, 19), (933762233931976493, 19), (929638215900236153, 19),
  (925521887510157154, 19), (921413239860492256, 19), (917312264117668141, 19), (913218951515749056, 19),
  (909133293356404609, 19), (905055281008880913, 19), (900984905909975181, 19), (896922159564014637, 19),
  (892867033542838889, 19), (888819519485785914, 19), (884779609099681924, 19), (880747294158835542, 19),
  (876722566505035161, 19), (872705418047550613, 19), (868695840763138577, 19), (864693826696051882, 19),
  (860699367958053380, 19), (856712456728432742, 19), (852733085254028106, 19), (848761245849251889, 19),
  (844796930896120207, 19), (840840132844286464, 19), (836890844211079649, 19), (832949057581546387, 19),
  (829014765608497295, 19), (825087961012557769, 19), (821168636582223360, 19), (817256785173918338, 19),
  (813352399712060775, 19), (809455473189129859, 19), (805565998665739302, 19), (801683969270714503, 19),
  (797809378201174424, 19), (793942218722618331, 19), (790082484169017385, 19), (786230167942910257, 19),
  (782385263515504165, 19), (778547764426780614, 19), (774717664285606011, 19), (770894956769847123, 19),
  (767079635626491813, 19), (763271694671774775, 19), (759471127791307710, 19), (755677928940216292, 19),
  (751892092143280344, 19), (748113611495081349, 19), (744342481160153585, 19), (740578695373142193, 19),
  (736822248438965405, 19), (733073134732983717, 19), (729331348701173499, 19), (725596884860307267, 19),
  (721869737798139233, 19), (718149902173596810, 19), (714437372716978381, 19), (710732144230156876, 19),
  (707034211586789196, 19), (703343569732532981, 19), (699660213685267818, 19), (695984138535324787, 19),
  (692315339445721267, 19), (688653811652402553, 19), (684999550464490820, 19), (681352551264539502, 19),
  (677712809508796143, 19), (674080320727470927, 19), (670455080525013125, 19), (666837084580394202, 19),
  (663226328647398555, 19), (659622808554921891, 19), (656026520207276115, 19), (652437459584503249, 19),
  (648855622742696148, 19), (645281005814327541, 19), (641713605008586985, 19), (638153416611725727, 19),
  (634600436987410726, 19), (631054662577085895, 19), (627516089900343049, 19), (623984715555300773, 19),
  (620460536218992512, 19), (616943548647763684, 19), (613433749677678025, 19), (609931136224933015, 19),
  (606435705286285237, 19), (602947453939484887, 19), (599466379343720490, 19), (595992478740073744, 19),
  (592525749451984080, 19), (589066188885724179, 19), (585613794530885912, 19), (582168563960876531, 19),
  (578730494833426812, 19), (575299584891109522, 19), (571875831961869974, 19), (568459233959567323, 19),
  (565049788884528989, 19), (561647494824115828, 19), (558252349953300489, 19), (554864352535257913, 19),
  (551483500921969017, 19), (548109793554836730, 19), (544743228965316323, 19), (541383805775558433, 19),
  (538031522699066317, 19), (534686378541367399, 19), (531348372200699109, 19), (528017502668709296, 19),
  (524693769031171764, 19), (521377170468717635, 19), (518067706257581417, 19), (514765375770364006, 19),
  (511470178476811782, 19), (508182113944611880, 19), (504901181840205424, 19), (501627381929617491, 19),
  (498360714079305323, 19), (495101178257024294, 19), (491848774532713182, 19), (488603503079397886, 19),
  (485365364174114786, 19), (482134358198854224, 19), (478910485641523970, 19), (475693747096933781, 19),
  (472484143267801471, 19), (469281674965780077, 19), (466086343112508128, 19), (462898148740682261, 19),
  (459717092995153495, 19), (456543177134047240, 19), (453376402529907935, 19), (450216770670868807, 19),
  (447064283161847098, 19), (443918941725766139, 19), (440780748204803868, 19), (437649704561669309, 19),
  (434525812880907358, 19), (431409075370232584, 19), (428299494361892713, 19), (425197072314063076, 19),
  (422101811812271577, 19), (419013715570856829, 19), (415932786434458149, 19), (412859027379540375, 19),
  (409792441515952691, 19), (406733032088523253, 19), (403680802478690523, 19), (400635756206172006, 19),
  (397597896930671491, 19), (394567228453625921, 19), (391543754719992920, 19), (388527479820080165, 19),
  (385518407991417636, 19), (382516543620673721, 19), (379521891245617124, 19), (376534455557125114, 19),
  (373554241401239523, 19), (370581253781272699, 19), (367615497859963350, 19), (364656978961685058, 19),
  (361705702574708632, 19), (358761674353518939, 19), (355824900121189669, 19), (352895385871815903, 19),
  (349973137773007120, 19), (347058162168442721, 19), (344150465580491047, 19), (341250054712894726, 19),
  (338356936453523896, 19), (335471117877199146, 19), (332592606248587400, 19), (329721409025171622, 19),
  (326857533860298033, 19), (324000988606301873, 19), (321151781317715740, 19), (318309920254561604, 19),
  (315475413885731165, 19), (312648270892454880, 19), (309828500171865015, 19), (307016110840654458, 19),
  (304211112238834853, 19), (301413513933597166, 19), (298623325723278814, 19), (295840557641440134, 19),
  (293065219961054502, 19), (290297323198815890, 19), (287536878119568143, 19), (284783895740859556, 19),
  (282038387337628441, 19), (279300364447022977, 19), (276569838873361208, 19), (273846822693235847, 19),
  (271131328260769133, 19), (268423368213023435, 19), (265722955475573355, 19), (263030103268245413, 19),
  (260344825111031332, 19), (257667134830182089, 19), (254997046564489245, 19), (252334574771760807, 19),
  (249679734235499634, 19), (247032540071791748, 19), (244393007736413391, 19), (241761153032165471, 19),
  (239136992116444173, 19), (236520541509058040, 19), (233911818100301337, 19), (231310839159293881, 19),
  (228717622342599486, 19), (226132185703133703, 19), (223554547699374093, 19), (220984727204885413, 19),
  (218422743518173722, 19), (215868616372883598, 19), (213322365948354006, 19), (210784012880548231, 19),
  (208253578273375518, 19), (205731083710421377, 19), (203216551267106187, 19), (200710003523291297, 19),
  (198211463576354052, 19), (195720955054753849, 19), (193238502132112300, 19), (190764129541833305, 19),
  (188297862592288305, 19), (185839727182595428, 19), (183389749819021577, 19), (180947957632039656, 19),
  (178514378394073192, 19), (176089040537964724, 19), (173671973176205453, 19), (171263206120965891, 19),
  (168862769904970615, 19), (166470695803262285, 19), (164087015855903760, 19), (161711762891669809, 19),
  (159344970552783502, 19), (156986673320756928, 19), (154636906543398518, 19), (152295706463055156, 19),
  (149963110246161165, 19), (147639156014171755, 19), (145323882875964035, 19), (143017330961795162, 19),
  (140719541458913487, 19), (138430556648925888, 19), (136150419947032898, 19), (133879175943251039, 19),
  (131616870445752116, 19), (129363550526458981, 19), (127119264569048856, 19), (124884062319527527, 19),
  (122657994939551988, 19), (120441115062693074, 19), (118233476853847295, 19), (116035136072024422, 19),
  (113846150136758077, 19), (111666578198408532, 19), (109496481212651656, 19), (107335922019475491, 19),
  (105184965427035856, 19), (103043678300756818, 19), (100912129658099151, 19), (987903907694620380, 20),
  (966785352657308084, 20), (945766392530357318, 20), (924847814353469029, 20), (904030432455965420, 20),
  (883315089860958746, 20), (862702659790985822, 20), (842194047284596826, 20), (821790190934484042, 20),
  (801492064758981861, 20), (781300680220201396, 20), (761217088403687899, 20), (741242382376369920, 20),
  (721377699741718691, 20), (701624225413531848, 20), (681983194632634643, 20), (662455896254145714, 20),
  (643043676336860388, 20), (623747942070876013, 20), (604570166084955358, 20), (585511891181457987, 20),
  (566574735554167472, 20), (547760398553264957, 20), (529070667072356181, 20), (510507422645257135, 20),
  (492072649355685798, 20), (473768442681749176, 20), (455597019419978853, 20), (437560728861750067, 20),
  (419662065429614577, 20), (401903683024253458, 20), (384288411386877853, 20), (366819274850284718, 20),
  (349499513938897593, 20), (332332610390146744, 20), (315322316314992773, 20), (298472688406265906, 20),
  (281788128356848981, 20), (265273430990268372, 20), (248933842070269947, 20), (232775128397775307, 20),
  (216803663706178042, 20), (201026535158670356, 20), (185451677141087470, 20), (170088041870498962, 20),
  (154945820679059211, 20), (140036736693642224, 20), (125374440855476944, 20), (110975062326345393, 20),
  (968579983952068489, 21), (830470932584022304, 21), (695724848635113999, 21), (564736848623737615, 21),
  (438051607567338302, 21), (316477095370594789, 21), (201361696027663157, 21), (955209899796100552, 22)]

theorem expoFLit_length : expoFLit.length = 1024 := by decide +kernel

/-- `expo.go` 564-821: `expoF`. -/
def expoF : Vector F64 1024 :=
  ⟨(expoFLit.map fun d => F64.ofDec d.1 d.2).toArray, by rw [List.size_toArray, List.length_map, expoFLit_length]⟩

/-- `normal.go` 54-311: the constants of `normalK`. -/
def normalKLit : List Nat := [
  0x1e3e4a8bb4f969, 0x00000000000000, 0x181f29db804409, 0x1b5405b352f86e,
  0x1cb0a36a1f2595, 0x1d70cf1f08543f, 0x1dea3fdec95c06, 0x1e3dd13ea3711f,
  0x1e7ac893a08e18, 0x1ea9327c8026c9, 0x1ecdb2d523da52, 0x1eeb25f2755db1,
  0x1f03679c0bc516, 0x1f17ba339b0015, 0x1f28ffd70bf283, 0x1f37dbc4c52f7b,
  0x1f44c6c3ccd493, 0x1f501c1707a95a, 0x1f5a21fa11984b, 0x1f630f59b3e4a2,
  0x1f6b0fc75879ee, 0x1f724642d86756, 0x1f78cf3bfdf0b2, 0x1f7ec20a54817f,
  0x1f8432047bca75, 0x1f892f52b0ec52, 0x1f8dc78f86f1af, 0x1f92064407767c,
  0x1f95f548979015, 0x1f999d11599f25, 0x1f9d04eaf01bed, 0x1fa0332b3b9e8d,
  0x1fa32d58c32bba, 0x1fa5f84acbf75e, 0x1fa89843a9c534, 0x1fab11067580f1,
  0x1fad65e91365d5, 0x1faf99e33eb118, 0x1fb1af9b29dd9e, 0x1fb3a9702490cd,
  0x1fb58983a15ca6, 0x1fb751c0e399e9, 0x1fb903e38fa03a, 0x1fbaa17d4c9e56,
  0x1fbc2bfa9e9a72, 0x1fbda4a7182e32, 0x1fbf0cb0fdfea0, 0x1fc0652c7172ad,
  0x1fc1af163487b8, 0x1fc2eb5615adbe, 0x1fc41ac110297d, 0x1fc53e1b2b7e2b,
  0x1fc6561922bce0, 0x1fc76361db3ca1, 0x1fc8668fb11d50, 0x1fc960319f06f6,
  0x1fca50cc45cd32, 0x1fcb38dad7f552, 0x1fcc18cfec8ea5, 0x1fccf1163c5415,
  0x1fcdc2114ba767, 0x1fce8c1e039f9e, 0x1fcf4f933c1983, 0x1fd00cc23879c0,
  0x1fd0c3f7189988, 0x1fd175793f27b8, 0x1fd2218baea00d, 0x1fd2c86d5dd6f8,
  0x1fd36a5984fa74, 0x1fd40787e3cdd6, 0x1fd4a02d01cfc7, 0x1fd5347a68e59f,
  0x1fd5c49edb15ee, 0x1fd650c683ccb7, 0x1fd6d91b25168d, 0x1fd75dc44133ec,
  0x1fd7dee740dbea, 0x1fd85ca7967c19, 0x1fd8d726debb7d, 0x1fd94e84fe7f49,
  0x1fd9c2e03ea9be, 0x1fda345565c5f2, 0x1fdaa2ffcfce40, 0x1fdb0ef98436ae,
  0x1fdb785b4a60a6, 0x1fdbdf3cbc99c1, 0x1fdc43b459c453, 0x1fdca5d795c56f,
  0x1fdd05bae8d1aa, 0x1fdd6371ddaf92, 0x1fddbf0f1f04b2, 0x1fde18a483c02e,
  0x1fde70431ab464, 0x1fdec5fb356f5b, 0x1fdf19dc72608f, 0x1fdf6bf5c65954,
  0x1fdfbc55857404, 0x1fe00b096b6d11, 0x1fe0581ea37840, 0x1fe0a3a1cf9b69,
  0x1fe0ed9f0f9767, 0x1fe13622076726, 0x1fe17d35e55c22, 0x1fe1c2e567df1b,
  0x1fe2073ae2db30, 0x1fe24a4044d923, 0x1fe28bff1bd019, 0x1fe2cc8099b0bf,
  0x1fe30bcd98af57, 0x1fe349ee9f50e8, 0x1fe386ebe43f80, 0x1fe3c2cd51e913,
  0x1fe3fd9a89ec66, 0x1fe4375ae8570f, 0x1fe4701586b78b, 0x1fe4a7d13f05ff,
  0x1fe4de94ae663a, 0x1fe5146637c547, 0x1fe5494c0654b9, 0x1fe57d4c0fe5bf,
  0x1fe5b06c1725db, 0x1fe5e2b1adbf0c, 0x1fe61422365d09, 0x1fe644c2e69917,
  0x1fe67498c8cdf2, 0x1fe6a3a8bdd51a, 0x1fe6d1f77eaed3, 0x1fe6ff899e15f3,
  0x1fe72c638a00b6, 0x1fe758898d0f81, 0x1fe783ffcfeaab, 0x1fe7aeca5a9027,
  0x1fe7d8ed1591e8, 0x1fe8026bcb45dc, 0x1fe82b4a28e834, 0x1fe8538bbfb0ae,
  0x1fe87b3405db9e, 0x1fe8a24657a740, 0x1fe8c8c5f845fe, 0x1fe8eeb612c634,
  0x1fe91419baeff1, 0x1fe938f3ee1944, 0x1fe95d4793f180, 0x1fe981177f43ef,
  0x1fe9a4666eb25c, 0x1fe9c7370d67e2, 0x1fe9e98bf3c44b, 0x1fea0b67a8007a,
  0x1fea2ccc9ecc0f, 0x1fea4dbd3be4bd, 0x1fea6e3bd2a777, 0x1fea8e4aa69be8,
  0x1feaadebebfa4b, 0x1feacd21c82c13, 0x1feaebee524779, 0x1feb0a53938647,
  0x1feb285387b805, 0x1feb45f01dafcc, 0x1feb632b37adde, 0x1feb8006abc545,
  0x1feb9c84443da0, 0x1febb8a5bff13c, 0x1febd46cd2a7bb, 0x1febefdb256d57,
  0x1fec0af256e6f4, 0x1fec25b3fba31f, 0x1fec40219e681f, 0x1fec5a3cc07f32,
  0x1fec7406d9fd18, 0x1fec8d815a080a, 0x1feca6ada71b32, 0x1fecbf8d1f47ca,
  0x1fecd8211873e9, 0x1fecf06ae0972a, 0x1fed086bbdf533, 0x1fed2024ef563b,
  0x1fed3797ac3da1, 0x1fed4ec5251ea8, 0x1fed65ae838f64, 0x1fed7c54ea79fc,
  0x1fed92b9764c3b, 0x1feda8dd3d2593, 0x1fedbec14f0397, 0x1fedd466b5ecfd,
  0x1fede9ce761b3e, 0x1fedfef98e22d4, 0x1fee13e8f71a2b, 0x1fee289da4bf5a,
  0x1fee3d18859c9b, 0x1fee515a832ba1, 0x1fee656481f7cc, 0x1fee793761bf49,
  0x1fee8cd3fd932e, 0x1feea03b2bf68b, 0x1feeb36dbefc8f, 0x1feec66c8465b5,
  0x1feed93845bc16, 0x1feeebd1c86ed3, 0x1feefe39cdecb0, 0x1fef107113bde3,
  0x1fef2278539d12, 0x1fef3450438fa0, 0x1fef45f995fd32, 0x1fef5774f9c68b,
  0x1fef68c31a5bbb, 0x1fef79e49fd1a0, 0x1fef8ada2ef6ce, 0x1fef9ba46967da,
  0x1fefac43eda30a, 0x1fefbcb9571b77, 0x1fefcd053e4ba5, 0x1fefdd2838c792,
  0x1fefed22d94e3b, 0x1feffcf5afdaaf, 0x1ff00ca149b499, 0x1ff01c26318063,
  0x1ff02b84ef4ed5, 0x1ff03abe08ac52, 0x1ff049d200afa8, 0x1ff058c158086d,
  0x1ff0678c8d0d07, 0x1ff076341bc844, 0x1ff084b87e06a0, 0x1ff0931a2b6325,
  0x1ff0a1599953fa, 0x1ff0af773b3694, 0x1ff0bd73825ba2, 0x1ff0cb4ede1296,
  0x1ff0d909bbb4ed, 0x1ff0e6a486b127, 0x1ff0f41fa89576, 0x1ff1017b891a25,
  0x1ff10eb88e2bbb, 0x1ff11bd71bf4d9, 0x1ff128d794e7dd, 0x1ff135ba59c83a,
  0x1ff1427fc9b3a2, 0x1ff14f28422ae8, 0x1ff15bb41f1aaf, 0x1ff16823bae3e0,
  0x1ff174776e63ea, 0x1ff180af90fcc9, 0x1ff18ccc789ce2, 0x1ff198ce79c6a4,
  0x1ff1a4b5e79801, 0x1ff1b08313d1b4, 0x1ff1bc364ede58, 0x1ff1c7cfe7d957,
  0x1ff1d3502c95a9, 0x1ff1deb769a471, 0x1ff1ea05ea5b66, 0x1ff1f53bf8db20,
  0x1ff20059de1536, 0x1ff20b5fe1d23d, 0x1ff2164e4ab79f, 0x1ff221255e4d4c,
  0x1ff22be5610354, 0x1ff2368e963750, 0x1ff241214039b9, 0x1ff24b9da05312,
  0x1ff25603f6c902, 0x1ff2605482e340, 0x1ff26a8f82f072, 0x1ff274b5344ae2,
  0x1ff27ec5d35d1e, 0x1ff288c19ba681, 0x1ff292a8c7bf95, 0x1ff29c7b915e6d,
  0x1ff2a63a315ad3, 0x1ff2afe4dfb272, 0x1ff2b97bd38cd6, 0x1ff2c2ff433f61,
  0x1ff2cc6f645127, 0x1ff2d5cc6b7eaf, 0x1ff2df168cbda7, 0x1ff2e84dfb4081,
  0x1ff2f172e979f2, 0x1ff2fa85892070, 0x1ff303860b318c, 0x1ff30c749ff540,
  0x1ff3155177012e, 0x1ff31e1cbf3bc8, 0x1ff326d6a6df6a, 0x1ff32f7f5b7d5e,
  0x1ff338170a00d8, 0x1ff3409ddeb1de, 0x1ff34914053818, 0x1ff35179a89da4,
  0x1ff359cef351c4, 0x1ff362140f2b93, 0x1ff36a49256c9a, 0x1ff3726e5ec365,
  0x1ff37a83e34e01, 0x1ff38289da9c72, 0x1ff38a806bb31a, 0x1ff39267bd0d12,
  0x1ff39a3ff49e7f, 0x1ff3a20937d6cb, 0x1ff3a9c3aba2e6, 0x1ff3b16f746f6b,
  0x1ff3b90cb62ac2, 0x1ff3c09b944738, 0x1ff3c81c31bd05, 0x1ff3cf8eb10c53,
  0x1ff3d6f3343f2f, 0x1ff3de49dceb77, 0x1ff3e592cc34be, 0x1ff3ecce22ce25,
  0x1ff3f3fc00fc28, 0x1ff3fb1c86966c, 0x1ff4022fd30974, 0x1ff4093605585e,
  0x1ff4102f3c1e8b, 0x1ff4171b959149, 0x1ff41dfb2f816b, 0x1ff424ce275cdf,
  0x1ff42b949a303c, 0x1ff4324ea4a849, 0x1ff438fc631377, 0x1ff43f9df1635b,
  0x1ff446336b2e1e, 0x1ff44cbcebafe4, 0x1ff4533a8dcc30, 0x1ff459ac6c0f40,
  0x1ff46012a0af5f, 0x1ff4666d458e38, 0x1ff46cbc743a19, 0x1ff4730045ef3d,
  0x1ff47938d39902, 0x1ff47f6635d322, 0x1ff4858884eae8, 0x1ff48b9fd8e052,
  0x1ff491ac496743, 0x1ff497adede899, 0x1ff49da4dd8351, 0x1ff4a3912f0d95,
  0x1ff4a972f915d8, 0x1ff4af4a51e3d7, 0x1ff4b5174f79aa, 0x1ff4bada0794c1,
  0x1ff4c0928faee5, 0x1ff4c640fcff32, 0x1ff4cbe5647b0d, 0x1ff4d17fdad710,
  0x1ff4d710748800, 0x1ff4dc9745c3ac, 0x1ff4e2146281d9, 0x1ff4e787de7d20,
  0x1ff4ecf1cd33c9, 0x1ff4f25241e8a6, 0x1ff4f7a94fa3e8, 0x1ff4fcf70933f1,
  0x1ff5023b812e1f, 0x1ff50776c9ef9a, 0x1ff50ca8f59e19, 0x1ff511d21628a4,
  0x1ff516f23d4859, 0x1ff51c097c8121, 0x1ff52117e52273, 0x1ff5261d884803,
  0x1ff52b1a76da79, 0x1ff5300ec19020, 0x1ff534fa78ed95, 0x1ff539ddad466f,
  0x1ff53eb86ebdeb, 0x1ff5438acd478c, 0x1ff54854d8a7bf, 0x1ff54d16a0747b,
  0x1ff551d03415df, 0x1ff55681a2c6ca, 0x1ff55b2afb9571, 0x1ff55fcc4d63fb,
  0x1ff56465a6e90c, 0x1ff568f716b059, 0x1ff56d80ab1b36, 0x1ff57202726122,
  0x1ff5767c7a904e, 0x1ff57aeed18e28, 0x1ff57f598517db, 0x1ff583bca2c2d6,
  0x1ff5881837fd4b, 0x1ff58c6c520eae, 0x1ff590b8fe1830, 0x1ff594fe49153e,
  0x1ff5993c3fdbf3, 0x1ff59d72ef1d94, 0x1ff5a1a2636704, 0x1ff5a5caa92134,
  0x1ff5a9ebcc9197, 0x1ff5ae05d9da92, 0x1ff5b218dcfbe5, 0x1ff5b624e1d31c,
  0x1ff5ba29f41bf8, 0x1ff5be281f70d3, 0x1ff5c21f6f4b0c, 0x1ff5c60fef036d,
  0x1ff5c9f9a9d288, 0x1ff5cddcaad120, 0x1ff5d1b8fcf885, 0x1ff5d58eab22f6,
  0x1ff5d95dc00bfc, 0x1ff5dd264650ca, 0x1ff5e0e8487091, 0x1ff5e4a3d0cce1,
  0x1ff5e858e9a9fc, 0x1ff5ec079d2f2d, 0x1ff5efaff5671e, 0x1ff5f351fc402d,
  0x1ff5f6edbb8cbd, 0x1ff5fa833d0387, 0x1ff5fe128a3fec, 0x1ff6019bacc241,
  0x1ff6051eadf020, 0x1ff6089b9714b1, 0x1ff60c127160fa, 0x1ff60f8345ec23,
  0x1ff612ee1db3c4, 0x1ff61653019c2a, 0x1ff619b1fa70a1, 0x1ff61d0b10e3b4,
  0x1ff6205e4d8f79, 0x1ff623abb8f5ce, 0x1ff626f35b80a2, 0x1ff62a353d822f,
  0x1ff62d71673541, 0x1ff630a7e0bd75, 0x1ff633d8b22772, 0x1ff63703e3692d,
  0x1ff63a297c6224, 0x1ff63d4984db99, 0x1ff640640488cc, 0x1ff64379030737,
  0x1ff6468887dec8, 0x1ff649929a8217, 0x1ff64c97424e9d, 0x1ff64f96868cee,
  0x1ff652906e70ec, 0x1ff655850119fd, 0x1ff6587445933f, 0x1ff65b5e42d3bc,
  0x1ff65e42ffbe9a, 0x1ff66122832352, 0x1ff663fcd3bddc, 0x1ff666d1f836e2,
  0x1ff669a1f723f1, 0x1ff66c6cd707a3, 0x1ff66f329e51d2, 0x1ff671f3535fc4,
  0x1ff674aefc7c57, 0x1ff677659fe02e, 0x1ff67a1743b1dd, 0x1ff67cc3ee0611,
  0x1ff67f6ba4dfbe, 0x1ff6820e6e3048, 0x1ff684ac4fd7a7, 0x1ff687454fa496,
  0x1ff689d97354b6, 0x1ff68c68c094b8, 0x1ff68ef33d0080, 0x1ff69178ee234f,
  0x1ff693f9d977e4, 0x1ff696760468a4, 0x1ff698ed744fbd, 0x1ff69b602e774a,
  0x1ff69dce381973, 0x1ff6a037966094, 0x1ff6a29c4e675d, 0x1ff6a4fc6538f2,
  0x1ff6a757dfd10d, 0x1ff6a9aec31c20, 0x1ff6ac0113f771, 0x1ff6ae4ed7313c,
  0x1ff6b0981188d2, 0x1ff6b2dcc7aeb7, 0x1ff6b51cfe44be, 0x1ff6b758b9de28,
  0x1ff6b98ffeffc2, 0x1ff6bbc2d21fff, 0x1ff6bdf137a714, 0x1ff6c01b33ef17,
  0x1ff6c240cb4414, 0x1ff6c46201e42f, 0x1ff6c67edbffb6, 0x1ff6c8975db942,
  0x1ff6caab8b25cc, 0x1ff6ccbb684cc6, 0x1ff6cec6f92835, 0x1ff6d0ce41a4c9,
  0x1ff6d2d145a1f3, 0x1ff6d4d008f1fd, 0x1ff6d6ca8f5a20, 0x1ff6d8c0dc929d,
  0x1ff6dab2f446cf, 0x1ff6dca0da1544, 0x1ff6de8a918fcf, 0x1ff6e0701e3ba1,
  0x1ff6e251839158, 0x1ff6e42ec4fd17, 0x1ff6e607e5de9a, 0x1ff6e7dce98945,
  0x1ff6e9add3443d, 0x1ff6eb7aa64a73, 0x1ff6ed4365cabe, 0x1ff6ef0814e7e7,
  0x1ff6f0c8b6b8bd, 0x1ff6f2854e4827, 0x1ff6f43dde9531, 0x1ff6f5f26a9321,
  0x1ff6f7a2f52985, 0x1ff6f94f813440, 0x1ff6faf811839f, 0x1ff6fc9ca8dc62,
  0x1ff6fe3d49f7d2, 0x1ff6ffd9f783c7, 0x1ff70172b422bb, 0x1ff70307826bda,
  0x1ff7049864eb08, 0x1ff706255e20f5, 0x1ff707ae708327, 0x1ff709339e7c06,
  0x1ff70ab4ea6ae7, 0x1ff70c3256a41e, 0x1ff70dabe57101, 0x1ff70f21990ff8,
  0x1ff7109373b489, 0x1ff7120177875e, 0x1ff7136ba6a655, 0x1ff714d2032484,
  0x1ff716348f0a47, 0x1ff717934c5549, 0x1ff718ee3cf889, 0x1ff71a4562dc69,
  0x1ff71b98bfdeb2, 0x1ff71ce855d29d, 0x1ff71e342680dc, 0x1ff71f7c33a7a0,
  0x1ff720c07efaa4, 0x1ff722010a232d, 0x1ff7233dd6c019, 0x1ff72476e665de,
  0x1ff725ac3a9e96, 0x1ff726ddd4ea03, 0x1ff7280bb6bd90, 0x1ff72935e1845e,
  0x1ff72a5c569f44, 0x1ff72b7f1764d5, 0x1ff72c9e252165, 0x1ff72db981170a,
  0x1ff72ed12c7da6, 0x1ff72fe52882e4, 0x1ff730f5764a3f, 0x1ff7320216ed05,
  0x1ff7330b0b7a59, 0x1ff7341054f733, 0x1ff73511f45e68, 0x1ff7360feaa0a5,
  0x1ff7370a38a475, 0x1ff73800df4643, 0x1ff738f3df5857, 0x1ff739e339a2d9,
  0x1ff73aceeee3d2, 0x1ff73bb6ffcf2d, 0x1ff73c9b6d0eb2, 0x1ff73d7c37420b,
  0x1ff73e595efec1, 0x1ff73f32e4d03b, 0x1ff74008c937bd, 0x1ff740db0cac66,
  0x1ff741a9af9b2e, 0x1ff74274b266e5, 0x1ff7433c15682f, 0x1ff743ffd8ed83,
  0x1ff744bffd3b27, 0x1ff7457c828b2a, 0x1ff74635690d67, 0x1ff746eab0e779,
  0x1ff7479c5a34bd, 0x1ff7484a65064a, 0x1ff748f4d162ee, 0x1ff7499b9f4729,
  0x1ff74a3ecea523, 0x1ff74ade5f64ae, 0x1ff74b7a516339, 0x1ff74c12a473cd,
  0x1ff74ca7585f06, 0x1ff74d386ce30b, 0x1ff74dc5e1b386, 0x1ff74e4fb679a0,
  0x1ff74ed5ead3f3, 0x1ff74f587e5688, 0x1ff74fd7708ac9, 0x1ff75052c0ef7d,
  0x1ff750ca6ef8b9, 0x1ff7513e7a0fdb, 0x1ff751aee1937e, 0x1ff7521ba4d76f,
  0x1ff75284c324a4, 0x1ff752ea3bb930, 0x1ff7534c0dc837, 0x1ff753aa3879e4,
  0x1ff75404baeb5b, 0x1ff7545b942eac, 0x1ff754aec34aca, 0x1ff754fe473b79,
  0x1ff7554a1ef144, 0x1ff7559249516b, 0x1ff755d6c535da, 0x1ff75617916d16,
  0x1ff75654acba30, 0x1ff7568e15d4b3, 0x1ff756c3cb6898, 0x1ff756f5cc1631,
  0x1ff7572416721c, 0x1ff7574ea90531, 0x1ff75775824c6e, 0x1ff75798a0b8ea,
  0x1ff757b802afbc, 0x1ff757d3a689ee, 0x1ff757eb8a9465, 0x1ff757ffad0fd3,
  0x1ff758100c309b, 0x1ff7581ca61ec5, 0x1ff7582578f5e2, 0x1ff7582a82c4f9,
  0x1ff7582bc18e71, 0x1ff758293347fd, 0x1ff75822d5da7f, 0x1ff75818a721f5,
  0x1ff7580aa4ed62, 0x1ff757f8ccfeaf, 0x1ff757e31d0a9c, 0x1ff757c992b89c,
  0x1ff757ac2ba2c2, 0x1ff7578ae555a4, 0x1ff75765bd5041, 0x1ff7573cb103e2,
  0x1ff7570fbdd403, 0x1ff756dee11630, 0x1ff756aa1811ee, 0x1ff75671600098,
  0x1ff75634b60d44, 0x1ff755f41754a0, 0x1ff755af80e4d7, 0x1ff75566efbd6d,
  0x1ff7551a60cf1e, 0x1ff754c9d0fbbe, 0x1ff754753d1618, 0x1ff7541ca1e1c6,
  0x1ff753bffc1313, 0x1ff7535f484ed3, 0x1ff752fa832a3f, 0x1ff75291a92ad1,
  0x1ff75224b6c619, 0x1ff751b3a8619c, 0x1ff7513e7a52a8, 0x1ff750c528de2c,
  0x1ff75047b0388f, 0x1ff74fc60c8586, 0x1ff74f4039d7e9, 0x1ff74eb6343187,
  0x1ff74e27f782fa, 0x1ff74d957fab78, 0x1ff74cfec878a7, 0x1ff74c63cda66c,
  0x1ff74bc48adebc, 0x1ff74b20fbb96c, 0x1ff74a791bbbfd, 0x1ff749cce6596a,
  0x1ff7491c56f1f6, 0x1ff7486768d2f6, 0x1ff747ae17369b, 0x1ff746f05d43be,
  0x1ff7462e360da5, 0x1ff745679c93cc, 0x1ff7449c8bc1ac, 0x1ff743ccfe6e81,
  0x1ff742f8ef5d0b, 0x1ff74220593b53, 0x1ff7414336a271, 0x1ff74061821644,
  0x1ff73f7b36053a, 0x1ff73e904cc80b, 0x1ff73da0c0a176, 0x1ff73cac8bbdfd,
  0x1ff73bb3a833a2, 0x1ff73ab61001a0, 0x1ff739b3bd101f, 0x1ff738aca92ff1,
  0x1ff737a0ce1a45, 0x1ff73690257059, 0x1ff7357aa8bb30, 0x1ff73460516b42,
  0x1ff7334118d82c, 0x1ff7321cf8405e, 0x1ff730f3e8c8c9, 0x1ff72fc5e37c89,
  0x1ff72e92e14c8d, 0x1ff72d5adb0f45, 0x1ff72c1dc98042, 0x1ff72adba53fde,
  0x1ff7299466d2df, 0x1ff7284806a216, 0x1ff726f67cfa02, 0x1ff7259fc20a6a,
  0x1ff72443cde5fc, 0x1ff722e29881e5, 0x1ff7217c19b568, 0x1ff72010493976,
  0x1ff71e9f1ea842, 0x1ff71d28917cd1, 0x1ff71bac99128b, 0x1ff71a2b2ca4c8,
  0x1ff718a4434e5a, 0x1ff71717d4091b, 0x1ff71585d5ad6d, 0x1ff713ee3ef1c5,
  0x1ff71251066a27, 0x1ff710ae2287ab, 0x1ff70f058997f4, 0x1ff70d5731c4b2,
  0x1ff70ba3111313, 0x1ff709e91d633c, 0x1ff708294c6fbc, 0x1ff7066393ccf7,
  0x1ff70497e8e898, 0x1ff702c64108f9, 0x1ff700ee914c89, 0x1ff6ff10cea92f,
  0x1ff6fd2cedebb0, 0x1ff6fb42e3b704, 0x1ff6f952a483b7, 0x1ff6f75c249f3f,
  0x1ff6f55f582b4b, 0x1ff6f35c331d18, 0x1ff6f152a93cba, 0x1ff6ef42ae2467,
  0x1ff6ed2c353fb9, 0x1ff6eb0f31caf1, 0x1ff6e8eb96d235, 0x1ff6e6c15730c8,
  0x1ff6e49065903c, 0x1ff6e258b467a8, 0x1ff6e01a35fad1, 0x1ff6ddd4dc5952,
  0x1ff6db88995dc0, 0x1ff6d9355eaccb, 0x1ff6d6db1db452, 0x1ff6d479c7aa7f,
  0x1ff6d2114d8cd3, 0x1ff6cfa1a01f30, 0x1ff6cd2aafeae3, 0x1ff6caac6d3da1,
  0x1ff6c826c82883, 0x1ff6c599b07efa, 0x1ff6c30515d5c0, 0x1ff6c068e781c1,
  0x1ff6bdc51496fd, 0x1ff6bb198be767, 0x1ff6b8663c01bb, 0x1ff6b5ab13304e,
  0x1ff6b2e7ff77d6, 0x1ff6b01cee962f, 0x1ff6ad49ce0117, 0x1ff6aa6e8ae4dd,
  0x1ff6a78b122313, 0x1ff6a49f505133, 0x1ff6a1ab31b737, 0x1ff69eaea24e32,
  0x1ff69ba98dbee0, 0x1ff6989bdf6021, 0x1ff6958582357e, 0x1ff6926660ed97,
  0x1ff68f3e65e08c, 0x1ff68c0d7b0e62, 0x1ff688d38a1d50, 0x1ff685907c5815,
  0x1ff682443aac35, 0x1ff67eeeada832, 0x1ff67b8fbd79b6, 0x1ff6782751ebb9,
  0x1ff674b5526495, 0x1ff67139a5e411, 0x1ff66db433015c, 0x1ff66a24dfe905,
  0x1ff6668b925adc, 0x1ff662e82fa7cb, 0x1ff65f3a9cafa1, 0x1ff65b82bdded0,
  0x1ff657c0772c16, 0x1ff653f3ac1625, 0x1ff6501c3fa12b, 0x1ff64c3a14545c,
  0x1ff6484d0c375a, 0x1ff6445508cf9b, 0x1ff64051eb1db8, 0x1ff63c43939aaa,
  0x1ff63829e234f5, 0x1ff63404b64dc3, 0x1ff62fd3eeb5ec, 0x1ff62b9769aae5,
  0x1ff6274f04d3a0, 0x1ff622fa9d3d57, 0x1ff61e9a0f583d, 0x1ff61a2d36f41f,
  0x1ff615b3ef3ce8, 0x1ff6112e12b713, 0x1ff60c9b7b3c00, 0x1ff607fc01f632,
  0x1ff6034f7f5d75, 0x1ff5fe95cb32e3, 0x1ff5f9cebc7cd8, 0x1ff5f4fa2982be,
  0x1ff5f017e7c8c3, 0x1ff5eb27cc0b70, 0x1ff5e629aa3b1b, 0x1ff5e11d557743,
  0x1ff5dc02a009c3, 0x1ff5d6d95b61e0, 0x1ff5d1a1580f3e, 0x1ff5cc5a65bca7,
  0x1ff5c704532aaf, 0x1ff5c19eee2a33, 0x1ff5bc2a0396a9, 0x1ff5b6a55f5050,
  0x1ff5b110cc362c, 0x1ff5ab6c141fd7, 0x1ff5a5b6ffd727, 0x1ff59ff15711a2,
  0x1ff59a1ae069be, 0x1ff594336157f4, 0x1ff58e3a9e2b92, 0x1ff588305a0368,
  0x1ff5821456c627, 0x1ff57be6551a9a, 0x1ff575a6145f8d, 0x1ff56f5352a388,
  0x1ff568edcc9c3a, 0x1ff562753d9da7, 0x1ff55be95f910f, 0x1ff55549eaeb8b,
  0x1ff54e9696a459, 0x1ff547cf182ae8, 0x1ff540f3235c80, 0x1ff53a026a79a3,
  0x1ff532fc9e1b10, 0x1ff52be16d266d, 0x1ff524b084c292, 0x1ff51d69904b6f,
  0x1ff5160c394592, 0x1ff50e9827513e, 0x1ff5070d001d15, 0x1ff4ff6a67584e,
  0x1ff4f7affea47a, 0x1ff4efdd6586c6, 0x1ff4e7f23958bf, 0x1ff4dfee153892,
  0x1ff4d7d091f8be, 0x1ff4cf99460f37, 0x1ff4c747c583f1, 0x1ff4bedba1dece,
  0x1ff4b6546a14e7, 0x1ff4adb1aa7531, 0x1ff4a4f2ec9465, 0x1ff49c17b73838,
  0x1ff4931f8e41d1, 0x1ff48a09f29772, 0x1ff480d6620d53, 0x1ff47784574d9d,
  0x1ff46e1349bf86, 0x1ff46482ad6d7c, 0x1ff45ad1f2ea57, 0x1ff45100873586,
  0x1ff4470dd39e2d, 0x1ff43cf93da529, 0x1ff432c226dde4, 0x1ff42867eccdff,
  0x1ff41de9e8cbaa, 0x1ff413476fdaaf, 0x1ff4087fd2881c, 0x1ff3fd925cc472,
  0x1ff3f27e55bc50, 0x1ff3e742ffaf8e, 0x1ff3dbdf97c69c, 0x1ff3d05355e633,
  0x1ff3c49d6c811e, 0x1ff3b8bd086824, 0x1ff3acb15097e4, 0x1ff3a079660494,
  0x1ff39414636388, 0x1ff387815cf25c, 0x1ff37abf603bae, 0x1ff36dcd73d93f,
  0x1ff360aa97335f, 0x1ff35355c23d7b, 0x1ff345cde52fa6, 0x1ff33811e83cff,
  0x1ff32a20ab46b7, 0x1ff31bf9058b9d, 0x1ff30d99c553f1, 0x1ff2ff01af994e,
  0x1ff2f02f7faa77, 0x1ff2e121e6cacd, 0x1ff2d1d78bcd30, 0x1ff2c24f0aa9fc,
  0x1ff2b286f40ff7, 0x1ff2a27dccefc9, 0x1ff292320e01bd, 0x1ff281a2234579,
  0x1ff270cc6b7b45, 0x1ff25faf379689, 0x1ff24e48ca291a, 0x1ff23c9756c6e6,
  0x1ff22a99016188, 0x1ff2184bdd9b42, 0x1ff205adee10dd, 0x1ff1f2bd2399d8,
  0x1ff1df775c7e47, 0x1ff1cbda63a1c6, 0x1ff1b7e3efa2bd, 0x1ff1a391a1ed42,
  0x1ff18ee105c0be, 0x1ff179cf8f277f, 0x1ff1645a99df44, 0x1ff14e7f6831b7,
  0x1ff1383b21bbd2, 0x1ff1218ad222e8, 0x1ff10a6b67b62c, 0x1ff0f2d9b1fb37,
  0x1ff0dad260242a, 0x1ff0c251ff6dc6, 0x1ff0a954f963be, 0x1ff08fd792096b,
  0x1ff075d5e5e4c3, 0x1ff05b4be7e977, 0x1ff040355f41b4, 0x1ff0248de4f201,
  0x1ff00850e1554c, 0x1fefeb79896e21, 0x1fefce02dc0989, 0x1fefafe79eb009,
  0x1fef91225a608c, 0x1fef71ad5810eb, 0x1fef51829cef30, 0x1fef309be65e4d,
  0x1fef0ef2a5a86b, 0x1feeec7ffb607f, 0x1feec93cb26c08, 0x1feea5213aad4d,
  0x1fee8025a34587, 0x1fee5a4194658e, 0x1fee336c48a2ab, 0x1fee0b9c85c3fe,
  0x1fede2c894fbb8, 0x1fedb8e63a7e12, 0x1fed8deaac662b, 0x1fed61ca88d768,
  0x1fed3479cb47be, 0x1fed05ebc0dd34, 0x1fecd612fbc640, 0x1feca4e14571c2,
  0x1fec72478f8813, 0x1fec3e35e382d9, 0x1fec089b50bcfa, 0x1febd165d8cf35,
  0x1feb98825a0821, 0x1feb5ddc77c7ff, 0x1feb215e808137, 0x1feae2f15115db,
  0x1feaa27c354088, 0x1fea5fe4c4ab79, 0x1fea1b0ebc4b44, 0x1fe9d3dbd38321,
  0x1fe98a2b8c864e, 0x1fe93ddaff54db, 0x1fe8eec49e9910, 0x1fe89cbff58d03,
  0x1fe847a15ded0d, 0x1fe7ef39acd24e, 0x1fe79355d51f26, 0x1fe733be7dec95,
  0x1fe6d0378b20ea, 0x1fe6687f96032e, 0x1fe5fc4f53381e, 0x1fe58b58e31928,
  0x1fe5154708be3a, 0x1fe499bc4359d8, 0x1fe41851c4a2c7, 0x1fe390963decfc,
  0x1fe3020c7c359c, 0x1fe26c29c9b0d3, 0x1fe1ce54094389, 0x1fe127df7d9d7d,
  0x1fe0780c2a3655, 0x1fdfbe02b80705, 0x1fdef8d0c228c6, 0x1fde2764671edb,
  0x1fdd4886f1e212, 0x1fdc5ad660fb45, 0x1fdb5cbd80ed3b, 0x1fda4c6a383af4,
  0x1fd927c1841e8c, 0x1fd7ec507a1247, 0x1fd697396681f0, 0x1fd5251bcca40f,
  0x1fd391f592d6f4, 0x1fd1d8faf7a490, 0x1fcff461e8ca45, 0x1fcddd1bd07028,
  0x1fcb8a769788b3, 0x1fc8f199f36e14, 0x1fc604d032640d, 0x1fc2b28000dbca,
  0x1fbee3ac0cc16a, 0x1fba79b024d12d, 0x1fb54abd9de691, 0x1faf1c31164e6c,
  0x1fa79908ab5576, 0x1f9e40f74adba6, 0x1f92485b7f7ce4, 0x1f82566f32613d,
  0x1f6beeb86a3986, 0x1f49e14c562fc1, 0x1f0f1b3f87a334, 0x1e8d218970e9f8]

theorem normalKLit_length : normalKLit.length = 1024 := by decide +kernel

/-- `normal.go` 54-311: `normalK`. -/
def normalK : Vector U64 1024 :=
  ⟨(normalKLit.map (BitVec.ofNat 64)).toArray, by rw [List.size_toArray, List.length_map, normalKLit_length]⟩

/-- `normal.go` 313-570: the constants of `normalW`. -/
def normalWLit : List (Nat × Nat) := [
  (474447736997673454, 33), (149950672584574354, 34), (198925244441675334, 34), (232931734656154252, 34),
  (259805409399221482, 34), (282390849337205807, 34), (302072404382168115, 34), (319637756999175384, 34),
  (335581847741996873, 34), (350237918907125268, 34), (363842088069319060, 34), (376568359621902072, 34),
  (388549029674455544, 34), (399887271404885479, 34), (410665260620887388, 34), (420949623559874980, 34),
  (430795206891502077, 34), (440247757990233704, 34), (449345875327002910, 34), (458122456815039448, 34),
  (466605794695609696, 34), (474820416413924252, 34), (482787739593837055, 34), (490526588719055837, 34),
  (498053607414183723, 34), (505383590857482273, 34), (512529756349615950, 34), (519503965463335850, 34),
  (526316907899034361, 34), (532978254770334355, 34), (539496787274974680, 34), (545880505387522068, 34),
  (552136720216588931, 34), (558272132912632662, 34), (564292902430992755, 34), (570204704004093791, 34),
  (576012779824455802, 34), (581721983162684134, 34), (587336816924484999, 34), (592861467474938743, 34),
  (598299834416924934, 34), (603655556896294455, 34), (608932036913414661, 34), (614132460044681435, 34),
  (619259813915100218, 34), (624316904711406697, 34), (629306371982363009, 34), (634230701937148089, 34),
  (639092239422872284, 34), (643893198737117100, 34), (648635673410207942, 34), (653321645073973591, 34),
  (657952991518495417, 34), (662531494025336163, 34), (667058844054618932, 34), (671536649353770298, 34),
  (675966439547528951, 34), (680349671261725714, 34), (684687732827198133, 34), (688981948604878165, 34),
  (693233582968452103, 34), (697443843976946282, 34), (701613886766060445, 34), (705744816683965032, 34),
  (709837692194563100, 34), (713893527568816509, 34), (717913295382624915, 34), (721897928837879015, 34),
  (725848323921652097, 34), (729765341417029167, 34), (733649808777767593, 34), (737502521877819875, 34),
  (741324246645715269, 34), (745115720592869447, 34), (748877654244062334, 34), (752610732477584599, 34),
  (756315615781880504, 34), (759992941434922814, 34), (763643324612008193, 34), (767267359427181052, 34),
  (770865619913048833, 34), (774438660943359153, 34), (777987019102345971, 34), (781511213504527397, 34),
  (785011746568341703, 34), (788489104746738531, 34), (791943759217598825, 34), (795376166536632234, 34),
  (798786769255199909, 34), (802175996505322284, 34), (805544264553965537, 34), (808891977328541654, 34),
  (812219526915416622, 34), (815527294033093489, 34), (818815648481611505, 34), (822084949569601272, 34),
  (825335546520325750, 34), (828567778857952906, 34), (831781976775214191, 34), (834978461483526289, 34),
  (838157545546582758, 34), (841319533198352248, 34), (844464720646359403, 34), (847593396361067142, 34),
  (850705841352126876, 34), (853802329432211436, 34), (856883127469103091, 34), (859948495626664423, 34),
  (862998687595283339, 34), (866033950812341692, 34), (869054526673231507, 34), (872060650733402476, 34),
  (875052552901901087, 34), (878030457626832078, 34), (880994584073148199, 34), (883945146293149688, 34),
  (886882353390052602, 34), (889806409674966714, 34), (892717514817601226, 34), (895615863991000534, 34),
  (898501648010593776, 34), (901375053467829477, 34), (904236262858645734, 34), (907085454707019519, 34),
  (909922803683819417, 34), (912748480721179123, 34), (915562653122592837, 34), (918365484668927203, 34),
  (921157135720530599, 34), (923937763315613461, 34), (926707521265065175, 34), (929466560243859386, 34),
  (932215027879200085, 34), (934953068835544793, 34), (937680824896640050, 34), (940398435044695816, 34),
  (943106035536817829, 34), (945803759978813803, 34), (948491739396480449, 34), (951170102304477559, 34),
  (953838974772884575, 34), (956498480491536385, 34), (959148740832225374, 34), (961789874908857124, 34),
  (964421999635639259, 34), (967045229783381953, 34), (969659678033983937, 34), (972265455033173770, 34),
  (974862669441574773, 34), (977451427984157614, 34), (980031835498141046, 34), (982603994979400724, 34),
  (985168007627442285, 34), (987723972888990225, 34), (990271988500247306, 34), (992812150527869959, 34),
  (995344553408709128, 34), (997869289988361404, 34), (100038645155857078, 33), (100289612789352646, 33),
  (100539840728509293, 33), (100789337657701088, 33), (101038112119810637, 33), (101286172519454187, 33),
  (101533527126114272, 33), (101780184077183157, 33), (102026151380920064, 33), (102271436919325215, 33),
  (102516048450933459, 33), (102759993613530225, 33), (103003279926792351, 33), (103245914794856472, 33),
  (103487905508817134, 33), (103729259249157121, 33), (103969983088112181, 33), (104210083991972242, 33),
  (104449568823321212, 33), (104688444343217438, 33), (104926717213316494, 33), (105164393997938393, 33),
  (105401481166080830, 33), (105637985093380197, 33), (105873912064022036, 33), (106109268272602417, 33),
  (106344059825941985, 33), (106578292744853757, 33), (106811972965866535, 33), (107045106342904891, 33),
  (107277698648927354, 33), (107509755577523864, 33), (107741282744473731, 33), (107972285689265456, 33),
  (108202769876579329, 33), (108432740697733980, 33), (108662203472098044, 33), (108891163448467797, 33),
  (109119625806411894, 33), (109347595657584053, 33), (109575078047004702, 33), (109802077954312416, 33),
  (110028600294985997, 33), (110254649921538112, 33), (110480231624681227, 33), (110705350134466619, 33),
  (110930010121397184, 33), (111154216197514961, 33), (111377972917463705, 33), (111601284779527719, 33),
  (111824156226646909, 33), (112046591647409526, 33), (112268595377022417, 33), (112490171698260027, 33),
  (112711324842392217, 33), (112932058990091879, 33), (113152378272322600, 33), (113372286771207094, 33),
  (113591788520876717, 33), (113810887508302768, 33), (114029587674109985, 33), (114247892913372475, 33),
  (114465807076393063, 33), (114683333969465801, 33), (114900477355622693, 33), (115117240955364632, 33),
  (115333628447377160, 33), (115549643469231402, 33), (115765289618070321, 33), (115980570451281153, 33),
  (116195489487153828, 33), (116410050205526140, 33), (116624256048415675, 33), (116838110420639135, 33),
  (117051616690419100, 33), (117264778189978654, 33), (117477598216124283, 33), (117690080030816980, 33),
  (117902226861732367, 33), (118114041902809514, 33), (118325528314789292, 33), (118536689225741999, 33),
  (118747527731584844, 33), (118958046896589566, 33), (119168249753880024, 33), (119378139305920529, 33),
  (119587718524994711, 33), (119796990353675279, 33), (120005957705285091, 33), (120214623464349316, 33),
  (120422990487039293, 33), (120631061601607983, 33), (120838839608817553, 33), (121046327282358784, 33),
  (121253527369262875, 33), (121460442590305813, 33), (121667075640405169, 33), (121873429189009816, 33),
  (122079505880482533, 33), (122285308334475695, 33), (122490839146300340, 33), (122696100887288524, 33),
  (122901096105149173, 33), (123105827324317920, 33), (123310297046300403, 33), (123514507750009754, 33),
  (123718461892098188, 33), (123922161907282683, 33), (124125610208665206, 33), (124328809188047147, 33),
  (124531761216238629, 33), (124734468643362243, 33), (124936933799151901, 33), (125139158993246347, 33),
  (125341146515477847, 33), (125542898636156042, 33), (125744417606346799, 33), (125945705658146865, 33),
  (126146765004953410, 33), (126347597841729526, 33), (126548206345265193, 33), (126748592674433881, 33),
  (126948758970445083, 33), (127148707357092735, 33), (127348439940999464, 33), (127547958811857043, 33),
  (127747266042662928, 33), (127946363689952995, 33), (128145253794030531, 33), (128343938379191752, 33),
  (128542419453947447, 33), (128740699011241539, 33), (128938779028665833, 33), (129136661468671601, 33),
  (129334348278777961, 33), (129531841391776789, 33), (129729142725934690, 33), (129926254185191790, 33),
  (130123177659357399, 33), (130319915024302888, 33), (130516468142151432, 33), (130712838861465124, 33),
  (130909029017429017, 33), (131105040432032597, 33), (131300874914248551, 33), (131496534260208708, 33),
  (131692020253377668, 33), (131887334664723511, 33), (132082479252886468, 33), (132277455764344604, 33),
  (132472265933577584, 33), (132666911483227721, 33), (132861394124258933, 33), (133055715556113282, 33),
  (133249877466865345, 33), (133443881533374438, 33), (133637729421434525, 33), (133831422785922204, 33),
  (134024963270942571, 33), (134218352509972918, 33), (134411592126004677, 33), (134604683731683146, 33),
  (134797628929445493, 33), (134990429311656808, 33), (135183086460744187, 33), (135375601949329231, 33),
  (135567977340358535, 33), (135760214187232539, 33), (135952314033932682, 33), (136144278415146737, 33),
  (136336108856392608, 33), (136527806874140459, 33), (136719373975933210, 33), (136910811660505482, 33),
  (137102121417901019, 33), (137293304729588643, 33), (137484363068576449, 33), (137675297899525000, 33),
  (137866110678858586, 33), (138056802854875466, 33), (138247375867856532, 33), (138437831150172545, 33),
  (138628170126390264, 33), (138818394213377092, 33), (139008504820404364, 33), (139198503349249610, 33),
  (139388391194297375, 33), (139578169742638765, 33), (139767840374170084, 33), (139957404461689955, 33),
  (140146863370995443, 33), (140336218460977037, 33), (140525471083712499, 33), (140714622584559582, 33),
  (140903674302247659, 33), (141092627568968296, 33), (141281483710464933, 33), (141470244046121191, 33),
  (141658909889048506, 33), (141847482546172657, 33), (142035963318319189, 33), (142224353500298137, 33),
  (142412654380987524, 33), (142600867243416144, 33), (142788993364845401, 33), (142977034016850123, 33),
  (143164990465398655, 33), (143352863970932038, 33), (143540655788442258, 33), (143728367167549800, 33),
  (143915999352580287, 33), (144103553582640315, 33), (144291031091692587, 33), (144478433108630120, 33),
  (144665760857349899, 33), (144853015556825483, 33), (145040198421179183, 33), (145227310659753352, 33),
  (145414353477180922, 33), (145601328073455406, 33), (145788235643999982, 33), (145975077379736164, 33),
  (146161854467151629, 33), (146348568088367408, 33), (146535219421204479, 33), (146721809639249732, 33),
  (146908339911921321, 33), (147094811404533351, 33), (147281225278359998, 33), (147467582690699136, 33),
  (147653884794935197, 33), (147840132740601544, 33), (148026327673442515, 33), (148212470735474443, 33),
  (148398563065046663, 33), (148584605796901542, 33), (148770600062234361, 33), (148956546988752401, 33),
  (149142447700733740, 33), (149328303319085359, 33), (149514114961401023, 33), (149699883742018446, 33),
  (149885610772076122, 33), (150071297159569644, 33), (150256944009407648, 33), (150442552423467298, 33),
  (150628123500649215, 33), (150813658336932202, 33), (150999158025427356, 33), (151184623656431905, 33),
  (151370056317482610, 33), (151555457093408735, 33), (151740827066384657, 33), (151926167315982156, 33),
  (152111478919222251, 33), (152296762950626730, 33), (152482020482269297, 33), (152667252583826406, 33),
  (152852460322627702, 33), (153037644763706229, 33), (153222806969848164, 33), (153407948001642307, 33),
  (153593068917529416, 33), (153778170773850820, 33), (153963254624897277, 33), (154148321522957072, 33),
  (154333372518364035, 33), (154518408659545323, 33), (154703430993068819, 33), (154888440563690345, 33),
  (155073438414400447, 33), (155258425586471264, 33), (155443403119502720, 33), (155628372051468800, 33),
  (155813333418763447, 33), (155998288256246273, 33), (156183237597287937, 33), (156368182473815509, 33),
  (156553123916357383, 33), (156738062954088145, 33), (156923000614873167, 33), (157107937925313055, 33),
  (157292875910787753, 33), (157477815595500715, 33), (157662758002522667, 33), (157847704153835213, 33),
  (158032655070374495, 33), (158217611772074282, 33), (158402575277909386, 33), (158587546605938480, 33),
  (158772526773346968, 33), (158957516796489804, 33), (159142517690933871, 33), (159327530471500604, 33),
  (159512556152308068, 33), (159697595746813264, 33), (159882650267854158, 33), (160067720727691494, 33),
  (160252808138050671, 33), (160437913510163487, 33), (160623037854809549, 33), (160808182182358008, 33),
  (160993347502808732, 33), (161178534825833717, 33), (161363745160818308, 33), (161548979516902315, 33),
  (161734238903021013, 33), (161919524327946235, 33), (162104836800327194, 33), (162290177328731408, 33),
  (162475546921685447, 33), (162660946587715659, 33), (162846377335388972, 33), (163031840173353340, 33),
  (163217336110378526, 33), (163402866155396600, 33), (163588431317542441, 33), (163774032606194296, 33),
  (163959671031014176, 33), (164145347601988414, 33), (164331063329468093, 33), (164516819224209351, 33),
  (164702616297413983, 33), (164888455560769796, 33), (165074338026490941, 33), (165260264707358512, 33),
  (165446236616760854, 33), (165632254768734066, 33), (165818320178002477, 33), (166004433860019153, 33),
  (166190596831006396, 33), (166376810107996302, 33), (166563074708871354, 33), (166749391652405106, 33),
  (166935761958302707, 33), (167122186647241872, 33), (167308666740913411, 33), (167495203262062202, 33),
  (167681797234528034, 33), (167868449683286657, 33), (168055161634490654, 33), (168241934115510684, 33),
  (168428768154976623, 33), (168615664782818811, 33), (168802625030309414, 33), (168989649930103916, 33),
  (169176740516282557, 33), (169363897824392121, 33), (169551122891487517, 33), (169738416756173820, 33),
  (169925780458648072, 33), (170113215040741441, 33), (170300721545961501, 33), (170488301019534381, 33),
  (170675954508447491, 33), (170863683061491848, 33), (171051487729305094, 33), (171239369564414194, 33),
  (171427329621278499, 33), (171615368956333015, 33), (171803488628031764, 33), (171991689696891194, 33),
  (172179973225533961, 33), (172368340278732717, 33), (172556791923454226, 33), (172745329228903502, 33),
  (172933953266568298, 33), (173122665110263629, 33), (173311465836176617, 33), (173500356522911404, 33),
  (173689338251534511, 33), (173878412105620125, 33), (174067579171295755, 33), (174256840537288131, 33),
  (174446197294969232, 33), (174635650538402629, 33), (174825201364390081, 33), (175014850872518221, 33),
  (175204600165205693, 33), (175394450347750386, 33), (175584402528377059, 33), (175774457818285092, 33),
  (175964617331696586, 33), (176154882185904747, 33), (176345253501322533, 33), (176535732401531556, 33),
  (176726320013331317, 33), (176917017466788702, 33), (177107825895287836, 33), (177298746435580239, 33),
  (177489780227835149, 33), (177680928415690476, 33), (177872192146303730, 33), (178063572570403470, 33),
  (178255070842341199, 33), (178446688120143329, 33), (178638425565563711, 33), (178830284344136445, 33),
  (179022265625229025, 33), (179214370582096009, 33), (179406600391932782, 33), (179598956235930015, 33),
  (179791439299328341, 33), (179984050771473379, 33), (180176791845871372, 33), (180369663720244977, 33),
  (180562667596589690, 33), (180755804681230620, 33), (180949076184879612, 33), (181142483322692948, 33),
  (181336027314329363, 33), (181529709384008685, 33), (181723530760570754, 33), (181917492677534886, 33),
  (182111596373159921, 33), (182305843090504525, 33), (182500234077488199, 33), (182694770586952716, 33),
  (182889453876723996, 33), (183084285209674620, 33), (183279265853786772, 33), (183474397082215812, 33),
  (183669680173354273, 33), (183865116410896499, 33), (184060707083903826, 33), (184256453486870350, 33),
  (184452356919789194, 33), (184648418688219438, 33), (184844640103353661, 33), (185041022482086013, 33),
  (185237567147080959, 33), (185434275426842659, 33), (185631148655784948, 33), (185828188174301943, 33),
  (186025395328839383, 33), (186222771471966616, 33), (186420317962449118, 33), (186618036165322016, 33),
  (186815927451963908, 33), (187013993200171716, 33), (187212234794236140, 33), (187410653625017811, 33),
  (187609251090024227, 33), (187808028593487431, 33), (188006987546442507, 33), (188206129366806730, 33),
  (188405455479459693, 33), (188604967316324034, 33), (188804666316447089, 33), (189004553926083401, 33),
  (189204631598778014, 33), (189404900795450567, 33), (189605362984480414, 33), (189806019641792510, 33),
  (190006872250944115, 33), (190207922303212699, 33), (190409171297684347, 33), (190610620741343491, 33),
  (190812272149163355, 33), (191014127044197493, 33), (191216186957672204, 33), (191418453429080014, 33),
  (191620928006274167, 33), (191823612245564126, 33), (192026507711812086, 33), (192229615978530618, 33),
  (192432938627981378, 33), (192636477251274823, 33), (192840233448471084, 33), (193044208828682129, 33),
  (193248405010174753, 33), (193452823620475007, 33), (193657466296473707, 33), (193862334684533052, 33),
  (194067430440594702, 33), (194272755230288857, 33), (194478310729044679, 33), (194684098622202085, 33),
  (194890120605124601, 33), (195096378383313925, 33), (195302873672525343, 33), (195509608198885001, 33),
  (195716583699008082, 33), (195923801920118843, 33), (196131264620171745, 33), (196338973567974205, 33),
  (196546930543310761, 33), (196755137337068747, 33), (196963595751365526, 33), (197172307599677147, 33),
  (197381274706968798, 33), (197590498909826627, 33), (197799982056591400, 33), (198009726007493495, 33),
  (198219732634790018, 33), (198430003822903198, 33), (198640541468560777, 33), (198851347480938084, 33),
  (199062423781801849, 33), (199273772305655999, 33), (199485394999888997, 33), (199697293824923460, 33),
  (199909470754367371, 33), (200121927775167314, 33), (200334666887763859, 33), (200547690106248615, 33),
  (200760999458523754, 33), (200974596986463113, 33), (201188484746075952, 33), (201402664807672376, 33),
  (201617139256031204, 33), (201831910190570004, 33), (202046979725517451, 33), (202262349990087744, 33),
  (202478023128657676, 33), (202694001300945836, 33), (202910286682194359, 33), (203126881463353032, 33),
  (203343787851266055, 33), (203561008068861073, 33), (203778544355341163, 33), (203996398966379117, 33),
  (204214574174314534, 33), (204433072268353697, 33), (204651895554772137, 33), (204871046357119987, 33),
  (205090527016430335, 33), (205310339891430272, 33), (205530487358755239, 33), (205750971813166063, 33),
  (205971795667769198, 33), (206192961354240216, 33), (206414471323050314, 33), (206636328043696062, 33),
  (206858534004932669, 33), (207081091715010262, 33), (207304003701913928, 33), (207527272513607002, 33),
  (207750900718278004, 33), (207974890904591225, 33), (208199245681940768, 33), (208423967680708700, 33),
  (208649059552526584, 33), (208874523970541329, 33), (209100363629684556, 33), (209326581246946409, 33),
  (209553179561653111, 33), (209780161335748933, 33), (210007529354082279, 33), (210235286424696207, 33),
  (210463435379123218, 33), (210691979072684753, 33), (210920920384795075, 33), (211150262219269886, 33),
  (211380007504639803, 33), (211610159194468464, 33), (211840720267675765, 33), (212071693728866099, 33),
  (212303082608661626, 33), (212534889964040817, 33), (212767118878682447, 33), (212999772463314863, 33),
  (213232853856070774, 33), (213466366222847959, 33), (213700312757675320, 33), (213934696683085155, 33),
  (214169521250491287, 33), (214404789740573224, 33), (214640505463666660, 33), (214876671760160278, 33),
  (215113292000899053, 33), (215350369587594066, 33), (215587907953239220, 33), (215825910562534686, 33),
  (216064380912317420, 33), (216303322531998814, 33), (216542738984009734, 33), (216782633864252784, 33),
  (217023010802562531, 33), (217263873463173056, 33), (217505225545193831, 33), (217747070783093344, 33),
  (217989412947191270, 33), (218232255844158759, 33), (218475603317527623, 33), (218719459248207995, 33),
  (218963827555015296, 33), (219208712195205965, 33), (219454117165022956, 33), (219700046500250362, 33),
  (219946504276778083, 33), (220193494611176348, 33), (220441021661280425, 33), (220689089626785699, 33),
  (220937702749853317, 33), (221186865315726858, 33), (221436581653359894, 33), (221686856136054942, 33),
  (221937693182114032, 33), (222189097255501124, 33), (222441072866516438, 33), (222693624572483403, 33),
  (222946756978448060, 33), (223200474737891420, 33), (223454782553455078, 33), (223709685177680317, 33),
  (223965187413761033, 33), (224221294116310704, 33), (224478010192143950, 33), (224735340601072695, 33),
  (224993290356717806, 33), (225251864527335669, 33), (225511068236660988, 33), (225770906664765761, 33),
  (226031385048934614, 33), (226292508684557299, 33), (226554282926038454, 33), (226816713187725245, 33),
  (227079804944853071, 33), (227343563734509889, 33), (227607995156619834, 33), (227873104874946097, 33),
  (228138898618114040, 33), (228405382180654552, 33), (228672561424068725, 33), (228940442277913664, 33),
  (229209030740910595, 33), (229478332882075400, 33), (229748354841872325, 33), (230019102833391553, 33),
  (230290583143550690, 33), (230562802134321389, 33), (230835766243981675, 33), (231109481988394137, 33),
  (231383955962310960, 33), (231659194840706844, 33), (231935205380139600, 33), (232211994420140264, 33),
  (232489568884632461, 33), (232767935783382326, 33), (233047102213479990, 33), (233327075360852757, 33),
  (233607862501811426, 33), (233889471004630226, 33), (234171908331161568, 33), (234455182038486539, 33),
  (234739299780601484, 33), (235024269310142658, 33), (235310098480149078, 33), (235596795245865223, 33),
  (235884367666584153, 33), (236172823907532549, 33), (236462172241798779, 33), (236752421052304909, 33),
  (237043578833824211, 33), (237335654195045218, 33), (237628655860683558, 33), (237922592673643427, 33),
  (238217473597229409, 33), (238513307717410312, 33), (238810104245136988, 33), (239107872518714978, 33),
  (239406622006233812, 33), (239706362308055024, 33), (240007103159359781, 33), (240308854432758683, 33),
  (240611626140965008, 33), (240915428439533449, 33), (241220271629666530, 33), (241526166161090201, 33),
  (241833122635001274, 33), (242141151807088262, 33), (242450264590628499, 33), (242760472059663353, 33),
  (243071785452253955, 33), (243384216173820543, 33), (243697775800567012, 33), (244012476082994146, 33),
  (244328328949503883, 33), (244645346510097687, 33), (244963541060172056, 33), (245282925084413619, 33),
  (245603511260798023, 33), (245925312464695211, 33), (246248341773084802, 33), (246572612468884914, 33),
  (246898138045398530, 33), (247224932210881050, 33), (247553008893232735, 33), (247882382244820962, 33),
  (248213066647435849, 33), (248545076717383929, 33), (248878427310725201, 33), (249213133528657057, 33),
  (249549210723051837, 33), (249886674502151619, 33), (250225540736427036, 33), (250565825564604868, 33),
  (250907545399870849, 33), (251250716936253727, 33), (251595357155197067, 33), (251941483332325008, 33),
  (252289113044409985, 33), (252638264176548250, 33), (252988954929552291, 33), (253341203827566889, 33),
  (253695029725917248, 33), (254050451819198764, 33), (254407489649615630, 33), (254766163115579469, 33),
  (255126492480576575, 33), (255488498382314161, 33), (255852201842156964, 33), (256217624274864101, 33),
  (256584787498639260, 33), (256953713745505156, 33), (257324425672015814, 33), (257696946370319564, 33),
  (258071299379586766, 33), (258447508697817042, 33), (258825598794041129, 33), (259205594620933284, 33),
  (259587521627851403, 33), (259971405774321563, 33), (260357273543986857, 33), (260745151959038123, 33),
  (261135068595148270, 33), (261527051596930741, 33), (261921129693944567, 33), (262317332217269715, 33),
  (262715689116676891, 33), (263116230978418474, 33), (263518989043666858, 33), (263923995227629638, 33),
  (264331282139371511, 33), (264740883102374362, 33), (265152832175869293, 33), (265567164176975513, 33),
  (265983914703683452, 33), (266403120158720668, 33), (266824817774342438, 33), (267249045638089843, 33),
  (267675842719561636, 33), (268105248898248263, 33), (268537304992478964, 33), (268972052789536590, 33),
  (269409535076996728, 33), (269849795675352128, 33), (270292879471985739, 33), (270738832456561375, 33),
  (271187701757902172, 33), (271639535682434544, 33), (272094383754277006, 33), (272552296757060603, 33),
  (273013326777570319, 33), (273477527251305989, 33), (273944953010062883, 33), (274415660331643014, 33),
  (274889706991811436, 33), (275367152318622187, 33), (275848057249244035, 33), (276332484389427272, 33),
  (276820498075759143, 33), (277312164440868967, 33), (277807551481750737, 33), (278306729131386911, 33),
  (278809769333864928, 33), (279316746123195850, 33), (279827735706055869, 33), (280342816548688546, 33),
  (280862069468222715, 33), (281385577728678776, 33), (281913427141956598, 33), (282445706174119685, 33),
  (282982506057313632, 33), (283523920907682935, 33), (284070047849676934, 33), (284620987147167709, 33),
  (285176842341833248, 33), (285737720399297479, 33), (286303731863556198, 33), (286874991020261423, 33),
  (287451616069484142, 33), (288033729308625231, 33), (288621457326201151, 33), (289214931207294048, 33),
  (289814286751520329, 33), (290419664704450013, 33), (291031211003487324, 33), (291649077039316802, 33),
  (292273419934115806, 33), (292904402837846035, 33), (293542195244058016, 33), (294186973326777314, 33),
  (294838920300190389, 33), (295498226803014513, 33), (296165091309621205, 33), (296839720570187142, 33),
  (297522330082377811, 33), (298213144597323628, 33), (298912398662936796, 33), (299620337207938216, 33),
  (300337216170323839, 33), (301063303174408234, 33), (301798878261037434, 33), (302544234676082479, 33),
  (303299679722906963, 33), (304065535685164049, 33), (304842140827029101, 33), (305629850478829276, 33),
  (306429038217004164, 33), (307240097148445145, 33), (308063441310535995, 33), (308899507199679313, 33),
  (309748755442777747, 33), (310611672628080962, 33), (311488773314056120, 33), (312380602237545336, 33),
  (313287736745505053, 33), (314210789478158786, 33), (315150411335531828, 33), (316107294764196377, 33),
  (317082177406775642, 33), (318075846163520967, 33), (319089141723296803, 33), (320122963630864177, 33),
  (321178275968770732, 33), (322256113745867004, 33), (323357590100994689, 33), (324483904450408877, 33),
  (325636351731853417, 33), (326816332927997937, 33), (328025367088565772, 33), (329265105115761608, 33),
  (330537345633910606, 33), (331844053334676314, 33), (333187380277964729, 33), (334569690741175435, 33),
  (335993590353275734, 33), (337461960435388315, 33), (338977998710125106, 33), (340545267857112052, 33),
  (342167753809213188, 33), (343849936241510247, 33), (345596874458802672, 33), (347414312918604623, 33),
  (349308812056019781, 33), (351287912086532920, 33), (353360340332304427, 33), (355536276785065996, 33),
  (357827698785524979, 33), (360248835015253167, 33), (362816773398704201, 33), (365552290358827903, 33),
  (368481006182555539, 33), (371635034248583084, 33), (375055402359963201, 33), (378795726991530772, 33),
  (382928012531150890, 33), (387552252064390461, 33), (392813291480759925, 33), (398932778384521284, 33),
  (406276074536607163, 33), (415513537416232808, 33), (428102293057815158, 33), (448402409215454173, 33)]

theorem normalWLit_length : normalWLit.length = 1024 := by decide +kernel

/-- `normal.go` 313-570: `normalW`. -/
def normalW : Vector F64 1024 :=
  ⟨(normalWLit.map fun d => F64.ofDec d.1 d.2).toArray, by rw [List.size_toArray, List.length_map, normalWLit_length]⟩

/-- `normal.go` 572-829: the constants of `normalF`. -/
def normalFLit : List (Nat × Nat) := [
  (100000000000000000, 17), (990920388454552659, 18), (984076139692321328, 18), (978231105909971754, 18),
  (972990668995302288, 18), (968169358881174835, 18), (963662181667052309, 18), (959402691577932454, 18),
  (955345577442565874, 18), (951458237481504931, 18), (947716246374123439, 18), (944100717285557556, 18),
  (940596670809911495, 18), (937191976648821257, 18), (933876639344691784, 18), (930642300170011705, 18),
  (927481880006865822, 18), (924389317163929802, 18), (921359370895800223, 18), (918387471488135487, 18),
  (915469604043015805, 18), (912602217108963720, 18), (909782149931632533, 18), (907006573868361698, 18),
  (904272944721260075, 18), (901578963589548921, 18), (898922544442798399, 18), (896301787050057031, 18),
  (893714954216809576, 18), (891160452516485568, 18), (888636815879234265, 18), (886142691534053673, 18),
  (883676827902465489, 18), (881238064120824949, 18), (878825320929866649, 18), (876437592718426473, 18),
  (874073940546574613, 18), (871733486003934854, 18), (869415405783498851, 18), (867118926871072171, 18),
  (864843322266612646, 18), (862587907166904810, 18), (860352035549855843, 18), (858135097109657741, 18),
  (855936514499494705, 18), (853755740844685751, 18), (851592257494346083, 18), (849445571984029368, 18),
  (847315216185504871, 18), (845200744622958799, 18), (843101732937572401, 18), (841017776484710100, 18),
  (838948489049897606, 18), (836893501671449380, 18), (834852461559049686, 18), (832825031098840651, 18),
  (830810886936657389, 18), (828809719131987754, 18), (826821230376063032, 18), (824845135268196361, 18),
  (822881159645122096, 18), (820929039958635198, 18), (818988522697322141, 18), (817059363848598785, 18),
  (815141328397653298, 18), (813234189860225887, 18), (811337729846456579, 18), (809451737653296699, 18),
  (807576009883215873, 18), (805710350087146532, 18), (803854568429798744, 18), (802008481375642179, 18),
  (800171911394008784, 18), (798344686681902060, 18), (796526640903221672, 18), (794717612943223628, 18),
  (792917446677135151, 18), (791125990751931574, 18), (789343098380367647, 18), (787568627146425171, 18),
  (785802438821409321, 18), (784044399189983920, 18), (782294377885492942, 18), (780552248233966739, 18),
  (778817887106253326, 18), (777091174777763016, 18), (775371994795346575, 18), (773660233850868018, 18),
  (771955781661060270, 18), (770258530853285106, 18), (768568376856843427, 18), (766885217799508023, 18),
  (765208954408972408, 18), (763539489918932612, 18), (761876729979535705, 18), (760220582571948023, 18),
  (758570957926812284, 18), (756927768446377658, 18), (755290928630101610, 18), (753660355003534566, 18),
  (752035966050311422, 18), (750417682147083043, 18), (748805425501234856, 18), (747199120091244895, 18),
  (745598691609547282, 18), (744004067407769920, 18), (742415176444228830, 18), (740831949233563880, 18),
  (739254317798410443, 18), (737682215623005622, 18), (736115577608635774, 18), (734554340030834862, 18),
  (732998440498250803, 18), (731447817913099985, 18), (729902412433134584, 18), (728362165435053277, 18),
  (726827019479287850, 18), (725296918276101654, 18), (723771806652941940, 18), (722251630522988797, 18),
  (720736336854845838, 18), (719225873643324132, 18), (717720189881270398, 18), (716219235532392307, 18),
  (714722961505041332, 18), (713231319626907778, 18), (711744262620592538, 18), (710261744080016855, 18),
  (708783718447634881, 18), (707310140992416736, 18), (705840967788569307, 18), (704376155694964479, 18),
  (702915662335246938, 18), (701459446078593341, 18), (700007466021097091, 18), (698559681967754087, 18),
  (697116054415024444, 18), (695676544533950447, 18), (694241114153805183, 18), (692809725746255434, 18),
  (691382342410016060, 18), (689958927855978454, 18), (688539446392795629, 18), (687123862912905614, 18),
  (685712142878977637, 18), (684304252310765526, 18), (682900157772352912, 18), (681499826359775795, 18),
  (680103225689010160, 18), (678710323884309297, 18), (677321089566880752, 18), (675935491843888570, 18),
  (674553500297771169, 18), (673175084975862648, 18), (671800216380307957, 18), (670428865458260304, 18),
  (669061003592352765, 18), (667696602591433708, 18), (666335634681557210, 18), (664978072497219963, 18),
  (663623889072836981, 18), (662273057834447121, 18), (660925552591641208, 18), (659581347529706430, 18),
  (658240417201978012, 18), (656902736522392949, 18), (655568280758239696, 18), (654237025523094706, 18),
  (652908946769944043, 18), (651584020784480300, 18), (650262224178572046, 18), (648943533883898693, 18),
  (647627927145746574, 18), (646315381516960996, 18), (645005874852049188, 18), (643699385301430116, 18),
  (642395891305825861, 18), (641095371590791330, 18), (639797805161376965, 18), (638503171296921690, 18),
  (637211449545970976, 18), (635922619721317472, 18), (634636661895159881, 18), (633353556394376738, 18),
  (632073283795911989, 18), (630795824922268822, 18), (629521160837109073, 18), (628249272840954220, 18),
  (626980142466987078, 18), (625713751476948299, 18), (624450081857128136, 18), (623189115814448580, 18),
  (621930835772635082, 18), (620675224368472667, 18), (619422264448148518, 18), (618171939063673404, 18),
  (616924231469384243, 18), (615679125118523185, 18), (614436603659891389, 18), (613196650934576870, 18),
  (611959250972752056, 18), (610724387990541850, 18), (609492046386958308, 18), (608262210740900700, 18),
  (607034865808220636, 18), (605809996518847704, 18), (604587587973977381, 18), (603367625443316347, 18),
  (602150094362386978, 18), (600934980329886126, 18), (599722269105100403, 18), (598511946605372547, 18),
  (597303998903621736, 18), (596098412225913199, 18), (594895172949077344, 18), (593694267598377290, 18),
  (592495682845222915, 18), (591299405504931430, 18), (590105422534531132, 18), (588913721030610349, 18),
  (587724288227207459, 18), (586537111493743324, 18), (585352178332993578, 18), (584169476379100883, 18),
  (582988993395625044, 18), (581810717273631650, 18), (580634636029816353, 18), (579460737804666337, 18),
  (578289010860655317, 18), (577119443580473956, 18), (575952024465293255, 18), (574786742133060247, 18),
  (573623585316826445, 18), (572462542863106272, 18), (571303603730266896, 18), (570146756986947501, 18),
  (568991991810507525, 18), (567839297485503547, 18), (566688663402193593, 18), (565540079055069089, 18),
  (564393534041412903, 18), (563249018059883699, 18), (562106520909125495, 18), (560966032486402200, 18),
  (559827542786256349, 18), (558691041899191498, 18), (557556520010378143, 18), (556423967398382291, 18),
  (555293374433915909, 18), (554164731578609793, 18), (553038029383807195, 18), (551913258489378777, 18),
  (550790409622557542, 18), (549669473596794078, 18), (548550441310631132, 18), (547433303746597377, 18),
  (546318051970120289, 18), (545204677128456994, 18), (544093170449642893, 18), (542983523241458821, 18),
  (541875726890414411, 18), (540769772860748787, 18), (539665652693448128, 18), (538563358005279103, 18),
  (537462880487837968, 18), (536364211906615873, 18), (535267344100078812, 18), (534172268978763021, 18),
  (533078978524384572, 18), (531987464788963749, 18), (530897719893963171, 18), (529809736029440037, 18),
  (528723505453211451, 18), (527639020490033861, 18), (526556273530794039, 18), (525475257031714604, 18),
  (524395963513570873, 18), (523318385560920030, 18), (522242515821342734, 18), (521168347004696719, 18),
  (520095871882381044, 18), (519025083286612787, 18), (517955974109714057, 18), (516888537303410667, 18),
  (515822765878140577, 18), (514758652902373770, 18), (513696191501942345, 18), (512635374859379933, 18),
  (511576196213272216, 18), (510518648857616109, 18), (509462726141189703, 18), (508408421466930549, 18),
  (507355728291323471, 18), (506304640123798277, 18), (505255150526135011, 18), (504207253111878750, 18),
  (503160941545763629, 18), (502116209543143288, 18), (501073050869431991, 18), (500031459339552176, 18),
  (498991428817390670, 18), (497952953215262784, 18), (496916026493384011, 18), (495880642659349002, 18),
  (494846795767618586, 18), (493814479919013727, 18), (492783689260216540, 18), (491754417983278735, 18),
  (490726660325136788, 18), (489700410567133926, 18), (488675663034548846, 18), (487652412096130972, 18),
  (486630652163642430, 18), (485610377691405970, 18), (484591583175859431, 18), (483574263155116368, 18),
  (482558412208532517, 18), (481544024956278516, 18), (480531096058918139, 18), (479519620216992404, 18),
  (478509592170609566, 18), (477501006699040165, 18), (476493858620318178, 18), (475488142790846835, 18),
  (474483854105010427, 18), (473480987494790728, 18), (472479537929388904, 18), (471479500414852426, 18),
  (470480869993706530, 18), (469483641744591229, 18), (468487810781902547, 18), (467493372255438633, 18),
  (466500321350050706, 18), (465508653285298335, 18), (464518363315109206, 18), (463529446727443561, 18),
  (462541898843962684, 18), (461555715019701773, 18), (460570890642747366, 18), (459587421133918039, 18),
  (458605301946450494, 18), (457624528565688138, 18), (456645096508775161, 18), (455667001324353171, 18),
  (454690238592262597, 18), (453714803923247423, 18), (452740692958663815, 18), (451767901370192237, 18),
  (450796424859553291, 18), (449826259158227160, 18), (448857400027176501, 18), (447889843256572662, 18),
  (446923584665525564, 18), (445958620101816527, 18), (444994945441634815, 18), (444032556589317173, 18),
  (443071449477090429, 18), (442111620064817745, 18), (441153064339747436, 18), (440195778316265107, 18),
  (439239758035648631, 18), (438284999565826339, 18), (437331499001138102, 18), (436379252462098799, 18),
  (435428256095165389, 18), (434478506072506210, 18), (433529998591773269, 18), (432582729875877148, 18),
  (431636696172764678, 18), (430691893755199229, 18), (429748318920543493, 18), (428805967990544989, 18),
  (427864837311123847, 18), (426924923252163580, 18), (425986222207303700, 18), (425048730593734991, 18),
  (424112444851997561, 18), (423177361445780553, 18), (422243476861724587, 18), (421310787609226522, 18),
  (420379290220246393, 18), (419448981249116282, 18), (418519857272352080, 18), (417591914888466476, 18),
  (416665150717785093, 18), (415739561402263869, 18), (414815143605308911, 18), (413891894011598427, 18),
  (412969809326906689, 18), (412048886277929627, 18), (411129121612112847, 18), (410210512097481328, 18),
  (409293054522471167, 18), (408376745695763044, 18), (407461582446117632, 18), (406547561622213005, 18),
  (405634680092483491, 18), (404722934744960683, 18), (403812322487115960, 18), (402902840245705052, 18),
  (401994484966613663, 18), (401087253614705763, 18), (400181143173672649, 18), (399276150645884287, 18),
  (398372273052241765, 18), (397469507432031965, 18), (396567850842783176, 18), (395667300360122653, 18),
  (394767853077635733, 18), (393869506106726330, 18), (392972256576479051, 18), (392076101633522578, 18),
  (391181038441894835, 18), (390287064182909538, 18), (389394176055023800, 18), (388502371273707681, 18),
  (387611647071314847, 18), (386722000696954726, 18), (385833429416365614, 18), (384945930511790047, 18),
  (384059501281850291, 18), (383174139041426220, 18), (382289841121533858, 18), (381406604869205468, 18),
  (380524427647370656, 18), (379643306834738958, 18), (378763239825683773, 18), (377884224030126947, 18),
  (377006256873425205, 18), (376129335796257513, 18), (375253458254513395, 18), (374378621719182791, 18),
  (373504823676246767, 18), (372632061626569588, 18), (371760333085791705, 18), (370889635584223942, 18),
  (370019966666742639, 18), (369151323892686345, 18), (368283704835752845, 18), (367417107083897854, 18),
  (366551528239234425, 18), (365686965917933482, 18), (364823417750125389, 18), (363960881379802481, 18),
  (363099354464722690, 18), (362238834676313903, 18), (361379319699579538, 18), (360520807233005114, 18),
  (359663294988465443, 18), (358806780691133032, 18), (357951262079387433, 18), (357096736904725265, 18),
  (356243202931671443, 18), (355390657937691035, 18), (354539099713102213, 18), (353688526060989883, 18),
  (352838934797120363, 18), (351990323749856726, 18), (351142690760075260, 18), (350296033681082530, 18),
  (349450350378533170, 18), (348605638730348943, 18), (347761896626638090, 18), (346919121969615829, 18),
  (346077312673525539, 18), (345236466664560648, 18), (344396581880787367, 18), (343557656272068135, 18),
  (342719687799986183, 18), (341882674437769984, 18), (341046614170219531, 18), (340211504993632396, 18),
  (339377344915731294, 18), (338544131955591576, 18), (337711864143570240, 18), (336880539521235089, 18),
  (336050156141294687, 18), (335220712067529181, 18), (334392205374721585, 18), (333564634148590000, 18),
  (332737996485720111, 18), (331912290493498796, 18), (331087514290047957, 18), (330263666004159351, 18),
  (329440743775229916, 18), (328618745753197605, 18), (327797670098478044, 18), (326977514981901751, 18),
  (326158278584651795, 18), (325339959098202514, 18), (324522554724258172, 18), (323706063674692845, 18),
  (322890484171490522, 18), (322075814446685926, 18), (321262052742305848, 18), (320449197310310963, 18),
  (319637246412538656, 18), (318826198320645737, 18), (318016051316052317, 18), (317206803689885741, 18),
  (316398453742925523, 18), (315590999785548443, 18), (314784440137674482, 18), (313978773128712918, 18),
  (313173997097509316, 18), (312370110392293010, 18), (311567111370624539, 18), (310764998399344572, 18),
  (309963769854522453, 18), (309163424121405572, 18), (308363959594369463, 18), (307565374676868009, 18),
  (306767667781384312, 18), (305970837329382073, 18), (305174881751257510, 18), (304379799486291347, 18),
  (303585588982601906, 18), (302792248697098143, 18), (301999777095433408, 18), (301208172651959483, 18),
  (300417433849681281, 18), (299627559180211889, 18), (298838547143727984, 18), (298050396248925875, 18),
  (297263105012977646, 18), (296476671961488192, 18), (295691095628452361, 18), (294906374556212547, 18),
  (294122507295416835, 18), (293339492404977475, 18), (292557328452029808, 18), (291776014011891571, 18),
  (290995547668022603, 18), (290215928011984980, 18), (289437153643403722, 18), (288659223169927370, 18),
  (287882135207189693, 18), (287105888378771157, 18), (286330481316161234, 18), (285555912658720656, 18),
  (284782181053644612, 18), (284009285155925661, 18), (283237223628317658, 18), (282465995141299664, 18),
  (281695598373040257, 18), (280926032009362392, 18), (280157294743708485, 18), (279389385277105884, 18),
  (278622302318132842, 18), (277856044582884376, 18), (277090610794939241, 18), (276325999685326562, 18),
  (275562209992493257, 18), (274799240462271555, 18), (274037089847846860, 18), (273275756909726331, 18),
  (272515240415707294, 18), (271755539140846158, 18), (270996651867428051, 18), (270238577384936063, 18),
  (269481314490021606, 18), (268724861986474384, 18), (267969218685193300, 18), (267214383404157207, 18),
  (266460354968396429, 18), (265707132209964114, 18), (264954713967908317, 18), (264203099088244187, 18),
  (263452286423926541, 18), (262702274834822724, 18), (261953063187685908, 18), (261204650356128276, 18),
  (260457035220595323, 18), (259710216668339378, 18), (258964193593394454, 18), (258218964896550884, 18),
  (257474529485330172, 18), (256730886273960457, 18), (255988034183352142, 18), (255245972141073585, 18),
  (254504699081327723, 18), (253764213944928096, 18), (253024515679276085, 18), (252285603238337597, 18),
  (251547475582620750, 18), (250810131679153392, 18), (250073570501461007, 18), (249337791029545092, 18),
  (248602792249861565, 18), (247868573155299615, 18), (247135132745160718, 18), (246402470025138154, 18),
  (245670584007296466, 18), (244939473710051508, 18), (244209138158150596, 18), (243479576382652968, 18),
  (242750787420910635, 18), (242022770316549229, 18), (241295524119449517, 18), (240569047885728748, 18),
  (239843340677722672, 18), (239118401563967603, 18), (238394229619182746, 18), (237670823924252900, 18),
  (236948183566211390, 18), (236226307638223221, 18), (235505195239568560, 18), (234784845475626364, 18),
  (234065257457858583, 18), (233346430303794150, 18), (232628363137013683, 18), (231911055087134138, 18),
  (231194505289793989, 18), (230478712886638376, 18), (229763677025304813, 18), (229049396859408921, 18),
  (228335871548530495, 18), (227623100258199956, 18), (226911082159884953, 18), (226199816430977085, 18),
  (225489302254779228, 18), (224779538820492730, 18), (224070525323205261, 18), (223362260963878567, 18),
  (222654744949336708, 18), (221947976492254423, 18), (221241954811145891, 18), (220536679130353658, 18),
  (219832148680037726, 18), (219128362696165230, 18), (218425320420499919, 18), (217723021100592301, 18),
  (217021463989769819, 18), (216320648347127276, 18), (215620573437517754, 18), (214921238531543435, 18),
  (214222642905547045, 18), (213524785841603226, 18), (212827666627510459, 18), (212131284556783040, 18),
  (211435638928643338, 18), (210740729048014552, 18), (210046554225513299, 18), (209353113777442951, 18),
  (208660407025786782, 18), (207968433298201666, 18), (207277191928012028, 18), (206586682254203902, 18),
  (205896903621419325, 18), (205207855379951065, 18), (204519536885737568, 18), (203831947500358102, 18),
  (203145086591028257, 18), (202458953530595731, 18), (201773547697536221, 18), (201088868475949839, 18),
  (200404915255557592, 18), (199721687431698186, 18), (199039184405325115, 18), (198357405583004104, 18),
  (197676350376910642, 18), (196996018204827983, 18), (196316408490145256, 18), (195637520661856051, 18),
  (194959354154557007, 18), (194281908408447002, 18), (193605182869326375, 18), (192929176988596518, 18),
  (192253890223259810, 18), (191579322035919652, 18), (190905471894781159, 18), (190232339273651602, 18),
  (189559923651941686, 18), (188888224514666747, 18), (188217241352448411, 18), (187546973661516458, 18),
  (186877420943711098, 18), (186208582706485465, 18), (185540458462908397, 18), (184873047731667545, 18),
  (184206350037072863, 18), (183540364909060255, 18), (182875091883195645, 18), (182210530500679341, 18),
  (181546680308350666, 18), (180883540858692904, 18), (180221111709838705, 18), (179559392425575587, 18),
  (178898382575351927, 18), (178238081734283210, 18), (177578489483158686, 18), (176919605408448172, 18),
  (176261429102309380, 18), (175603960162595552, 18), (174947198192863307, 18), (174291142802380977, 18),
  (173635793606137179, 18), (172981150224849806, 18), (172327212284975412, 18), (171673979418718786, 18),
  (171021451264043001, 18), (170369627464679818, 18), (169718507670140545, 18), (169068091535726966, 18),
  (168418378722542977, 18), (167769368897506432, 18), (167121061733361415, 18), (166473456908690753, 18),
  (165826554107929208, 18), (165180353021376791, 18), (164534853345212534, 18), (163890054781508809, 18),
  (163245957038245848, 18), (162602559829326726, 18), (161959862874592936, 18), (161317865899840041, 18),
  (160676568636834161, 18), (160035970823328405, 18), (159396072203080219, 18), (158756872525868814, 18),
  (158118371547513265, 18), (157480569029890799, 18), (156843464740955868, 18), (156207058454759407, 18),
  (155571349951468652, 18), (154936339017387431, 18), (154302025444976926, 18), (153668409032876985, 18),
  (153035489585927692, 18), (152403266915191710, 18), (151771740837976926, 18), (151140911177859744, 18),
  (150510777764708670, 18), (149881340434708771, 18), (149252599030386235, 18), (148624553400633880, 18),
  (147997203400736826, 18), (147370548892398923, 18), (146744589743769832, 18), (146119325829472319, 18),
  (145494757030630556, 18), (144870883234898579, 18), (144247704336489618, 18), (143625220236205942, 18),
  (143003430841469298, 18), (142382336066351950, 18), (141761935831608232, 18), (141142230064707108, 18),
  (140523218699864866, 18), (139904901678078813, 18), (139287278947161447, 18), (138670350461775532, 18),
  (138054116183469494, 18), (137438576080713803, 18), (136823730128937976, 18), (136209578310568125, 18),
  (135596120615065596, 18), (134983357038965857, 18), (134371287585918625, 18), (133759912266728315, 18),
  (133149231099395554, 18), (132539244109159376, 18), (131929951328540213, 18), (131321352797383578, 18),
  (130713448562904816, 18), (130106238679734559, 18), (129499723209964890, 18), (128893902223196605, 18),
  (128288775796587207, 18), (127684344014899864, 18), (127080606970553261, 18), (126477564763672223, 18),
  (125875217502139619, 18), (125273565301648793, 18), (124672608285757394, 18), (124072346585941809, 18),
  (123472780341652863, 18), (122873909700372499, 18), (122275734817671372, 18), (121678255857267645, 18),
  (121081472991086847, 18), (120485386399322714, 18), (119889996270499330, 18), (119295302801534261, 18),
  (118701306197802933, 18), (118108006673204174, 18), (117515404450226971, 18), (116923499760018409, 18),
  (116332292842452945, 18), (115741783946202922, 18), (115151973328810359, 18), (114562861256760073, 18),
  (113974448005554244, 18), (113386733859788230, 18), (112799719113227850, 18), (112213404068888176, 18),
  (111627789039113606, 18), (111042874345659640, 18), (110458660319776011, 18), (109875147302291490, 18),
  (109292335643700181, 18), (108710225704249541, 18), (108128817854029904, 18), (107548112473065866, 18),
  (106968109951409290, 18), (106388810689234004, 18), (105810215096932489, 18), (105232323595214200, 18),
  (104655136615205868, 18), (104078654598553699, 18), (103502877997527526, 18), (102927807275126876, 18),
  (102353442905189260, 18), (101779785372500292, 18), (101206835172906212, 18), (100634592813428375, 18),
  (100063058812380049, 18), (994922336994854689, 19), (989221180160012731, 19), (983527123148402044, 19),
  (977840171606973729, 19), (972160331301788888, 19), (966487608119331737, 19), (960822008067846872, 19),
  (955163537278705260, 19), (949512202007796319, 19), (943868008636947475, 19), (938230963675374119, 19),
  (932601073761156751, 19), (926978345662749087, 19), (921362786280517237, 19), (915754402648309290, 19),
  (910153201935057637, 19), (904559191446414751, 19), (898972378626421292, 19), (893392771059210583, 19),
  (887820376470747213, 19), (882255202730602844, 19), (876697257853768924, 19), (871146550002507153, 19),
  (865603087488240469, 19), (860066878773483035, 19), (854537932473811712, 19), (849016257359880289, 19),
  (843501862359476717, 19), (837994756559624909, 19), (832494949208732599, 19), (827002449718785698, 19),
  (821517267667591089, 19), (816039412801068675, 19), (810568895035594927, 19), (805105724460397493, 19),
  (799649911340004627, 19), (794201466116748883, 19), (788760399413327845, 19), (783326722035422862, 19),
  (777900444974377464, 19), (772481579409938363, 19), (767070136713058071, 19), (761666128448763580, 19),
  (756269566379092206, 19), (750880462466095577, 19), (745498828874915226, 19), (740124677976930212, 19),
  (734758022352981210, 19), (729398874796670510, 19), (724047248317742365, 19), (718703156145545918, 19),
  (713366611732581257, 19), (708037628758133725, 19), (702716221131997887, 19), (697402402998293230, 19),
  (692096188739376172, 19), (686797592979849769, 19), (681506630590675427, 19), (676223316693389392, 19),
  (670947666664426096, 19), (665679696139554883, 19), (660419421018430125, 19), (655166857469261510, 19),
  (649922021933606042, 19), (644684931131287581, 19), (639455602065447243, 19), (634234052027729256, 19),
  (629020298603606420, 19), (623814359677851010, 19), (618616253440154931, 19), (613425998390904822, 19),
  (608243613347117726, 19), (603069117448542108, 19), (597902530163931314, 19), (592743871297494243, 19),
  (587593160995530661, 19), (582450419753257134, 19), (577315668421830783, 19), (572188928215578499, 19),
  (567070220719438148, 19), (561959567896620910, 19), (556856992096501982, 19), (551762516062749356, 19),
  (546676162941698712, 19), (541597956290984436, 19), (536527920088436597, 19), (531466078741254580, 19),
  (526412457095467648, 19), (521367080445694422, 19), (516329974545212816, 19), (511301165616353456, 19),
  (506280680361229501, 19), (501268545972816393, 19), (496264790146396864, 19), (491269441091385720, 19),
  (486282527543550960, 19), (481304078777647845, 19), (476334124620483718, 19), (471372695464432334, 19),
  (466419822281417679, 19), (461475536637387246, 19), (456539870707297624, 19), (451612857290634717, 19),
  (446694529827493317, 19), (441784922415241407, 19), (436884069825797181, 19), (431992007523545954, 19),
  (427108771683928912, 19), (422234399212734479, 19), (417368927766127509, 19), (412512395771450768, 19),
  (407664842448838272, 19), (402826307833680092, 19), (397996832799981382, 19), (393176459084662172, 19),
  (388365229312844576, 19), (383563187024180685, 19), (378770376700274317, 19), (373986843793256071, 19),
  (369212634755572283, 19), (364447797071055443, 19), (359692379287345418, 19), (354946431049737166, 19),
  (350210003136535233, 19), (345483147496001355, 19), (340765917284985773, 19), (336058366909342612, 19),
  (331360552066233063, 19), (326672529788430213, 19), (321994358490746979, 19), (317326098018717584, 19),
  (312667809699672325, 19), (308019556396357391, 19), (303381402563261890, 19), (298753414305827462, 19),
  (294135659442730339, 19), (289528207571440113, 19), (284931130137276376, 19), (280344500506203888, 19),
  (275768394041625113, 19), (271202888185453281, 19), (266648062543771679, 19), (262103998977413627, 19),
  (257570781697826177, 19), (253048497368613956, 19), (248537235213196345, 19), (244037087129051963, 19),
  (239548147809068648, 19), (235070514870568785, 19), (230604288992634701, 19), (226149574062422705, 19),
  (221706477331223457, 19), (217275109581106241, 19), (212855585303072629, 19), (208448022887745103, 19),
  (204052544829729059, 19), (199669277946913880, 19), (195298353616123362, 19), (190939908026690856, 19),
  (186594082453720861, 19), (182261023553013900, 19), (177940883679875810, 19), (173633821234315602, 19),
  (169340001035459473, 19), (165059594728384634, 19), (160792781227011572, 19), (156539747197199063, 19),
  (152300687584777193, 19), (148075806193945971, 19), (143865316322280175, 19), (139669441459542316, 19),
  (135488416058644739, 19), (131322486388457602, 19), (127171911479783233, 19), (123036964177767032, 19),
  (118917932316373563, 19), (114815120033420325, 19), (110728849248162304, 19), (106659461327725247, 19),
  (102607318974012561, 19), (985728083693508499, 20), (945563416274760454, 20), (905583596070130142, 20),
  (865793351580707894, 20), (826197768899249348, 20), (786802335703316348, 20), (747612992967011582, 20),
  (708636196188459216, 20), (669878988462190451, 20), (631349088452298670, 20), (593054997330070676, 20),
  (555006130161110785, 20), (517212979268926679, 20), (479687320096870273, 20), (442442474586257975, 20),
  (405493654017417653, 20), (368858414264003776, 20), (332557274499596569, 20), (296614581353088578, 20),
  (261059756072821439, 20), (225929167854221858, 20), (191269091742383187, 20), (157140688868097670, 20),
  (123629144788141646, 20), (908626104770669514, 21), (590596073134601871, 21), (286963927083327475, 21)]

theorem normalFLit_length : normalFLit.length = 1024 := by decide +kernel

/-- `normal.go` 572-829: `normalF`. -/
def normalF : Vector F64 1024 :=
  ⟨(normalFLit.map fun d => F64.ofDec d.1 d.2).toArray, by rw [List.size_toArray, List.length_map, normalFLit_length]⟩

end Crazy
