import Verif.Hash.Rescue

/-!
# The constants of `rescue/src/rescue_constants`

Generated from the Rust files: every little-endian byte string is written as the number it denotes
(in hexadecimal), the limbs of `A_INV` as in the source.
-/

namespace Verif.Rescue

/-- the modulus of the BLS12-381 scalar field -/
def p_ed381 : ℕ := 52435875175126190479447740508185965837690552500527637822603658699938581184513

/-- `rescue_constants/ed_on_bls12_381_base.rs:1-1302` -/
def ed381 : Consts where
  A := 5
  aInv := [0x33333332cccccccd, 0x217f0e679998f199, 0xe14a56699d73f002, 0x2e5f0fbadd72321c]
  mds := ⟨⟨0x73eda753299d7d483339d80809a1d80553bda402fffe5bfefffffffefffe3470, 0x73eda753299d7d483339d80809a1d80553bda402fffe5bfefffffffefd31ed71, 0x73eda753299d7d483339d80809a1d80553bda402fffe5bfefffffffb29e8dccf, 0x73eda753299d7d483339d80809a1d80553bda402fffe5bfefffffad750e8b4d1⟩,
    ⟨0x217f0, 0x3439b6f, 0x4767d6c50, 0x5ff275b59ce⟩,
    ⟨0x73eda753299d7d483339d80809a1d80553bda402fffe5bfefffffffeffffb213, 0x73eda753299d7d483339d80809a1d80553bda402fffe5bfefffffffeff885411, 0x73eda753299d7d483339d80809a1d80553bda402fffe5bfefffffffe5cba96b4, 0x73eda753299d7d483339d80809a1d80553bda402fffe5bfeffffff23ae5f0fb1⟩,
    ⟨0x190, 0x22312, 0x2df2030, 0x3d95ce1b3⟩⟩
  initVec := ⟨0x33259fda9fc11e3e6d7fd9093683f94e8bd4b1a3e1142ebdb188c6c70821544d, 0x117d527b78eb13903cd14428279eadf910d9489ec35a1fa34dc24994bd95405a, 0xe43e46ab1c0d4c4c121695ba20da62a3c25e4f2d090eb011dc2bad9eb614111, 0x1e95791ab2cd782eaa946e913ced2f0f37f96a2783965bf6382b5a0edb81a49⟩
  keyInjection := [⟨0x68f7e14e5730982458abd105e4a925bb0cee910da79dd02c64b0da1ddcde24e6, 0x340f88e7479020c1e85e881421c6a8d68ae89d1aa6e643554c6cf737d17c973, 0x667882f43f2ada47fe3c8804a5676d264060bf090eb96a54ab1c7d76fc47b33e, 0x7353c1c5289593e8aba5205cdb4514f796c548ced3a8fcf7e987ef45d6c28314⟩,
    ⟨0xe45f069f0bb58762da19c915b3371c0fed3402abe1498cf1d88d7ef7eb8b961, 0x26c405ff75522242b8fc38d382558e4a727ed49e0b78707321f5caea81f81d93, 0x40d56ef56bfbad2332d746ca3d6ed9100091b4c2834038bb8270219e0a25b85, 0x3210f8027e66d23b65d5d9004fff64a1700377bdebcea9ddfa7144741881d000⟩,
    ⟨0x4722b930ea623c901559a190acdd643674d7e3b3aada94a25725406accca2d36, 0x6f172b2d75a3af1a7ad3351ab355d59fd78a932ede0119385924df85451a8b1b, 0xa57a8efde0774828c967a2855d4a41c3c5ae09fd3857eae4f945813d76ae10d, 0x23cee34999f6754be60d6fa1a30bd2ffae7f56759494e4acf873bc6e6c46bac0⟩,
    ⟨0x2f9b6913c7bdf5bfaf9b775c3aef168b1eb0e88eb9dede3558ce3882a5e742bd, 0x6268f3095f5166930d90147e325f00a16f460a59baa08b4b0a22bb420fef166d, 0x1677cbd08af3e5fb94105428514f9b45a2ec9b69210968af95e38cc414499d1e, 0x32952ab9782e58e2b585d58c527191b924c8aa67b235967217fde02ea4eb6181⟩,
    ⟨0x3a7b61e9583eb52c1ebd9d09a9a03f2c524b5178f0a2ba22313de89e00fb832a, 0x34ea625e36ff3526db635b9625febcdb50817364a8137ff5693c5fad522bf19b, 0x51a0484bba8cc99247ba71787e0ef38e437269aeaee77e15626b9189ff55a969, 0x48562b1377663c7e9d27f7202af32063b97aba99783d13cb256535c268750ae9⟩,
    ⟨0x71af57e1a8140bea2b029728b63948d9d601868e8df7b3ae484e0a2643f3d917, 0x2626c3ae9167a31a304449e46f3666b53f8013e4b8468a97306eccf5e0e4fe41, 0x73d4152f0680cf375d0522f8261ab9fd6cf7ad396451115e9e8bae1a3b7fa4dc, 0x4744ec341c1eda592c278edbcdae136c1f6cdbf0948bfcaeee133f9f21485695⟩,
    ⟨0x2069d8f63ae61187923515c2f3277cbc311b16752d7042e5d762cb2f95286cb8, 0x3eb4bee8739a5982aebdd211c5d0240679c1b0ca93402d4fde2aa791eba9b7d6, 0x11952e8834b7ea38156a13d8990f9e9448d7266c8e19053b730044b8a78af5f0, 0xeb7bdbc7138dd306d383732a896280b87dcc28815464c724b8174dd0d9073d5⟩,
    ⟨0x4a9c302ed885acfc23f5be7906c8b1369263c100028ed0dc8fa75b85d063a063, 0x48149f1991299dd2ee933fe3a41bed4256b30a8f2d11011ff5914e1ffeabdc9c, 0x386026bf6b8ac1b428471e9f709d167ec67403d44a60e29a8d1bda0a27e0ffad, 0x496ec4e54aa44ddcd489e2589823b4ddc73e5578c61841f2a475c359789d476f⟩,
    ⟨0x6ec50345533425c7d7e72246aafb2f3f086e7061a785ce4ca0436dc631dc24ac, 0x42b8acd1d9944a279a526ad43f8ccc4c04aa1e7831f20caab39ca122cf9b7927, 0xca95900caeb3aa8049f76ae793d0bb1436dc3f8ebae106f187a4dafdec3eede, 0x49132d9ab5df705e575dae418e7b1c239e0ff619bc5c735440f95565db48bf60⟩,
    ⟨0xee809c3c63e65d5bdea429a230807bd1339c7516a0cceed4d0a7b2b83cf39e4, 0x42173bf9f89786b9925352f77e82a5148793226e37a607c24795614247652dda, 0x31645b601f484fdcb6ff6ab770851ec6ac3ecf96399a7e625867b9d9721d9358, 0xd7475e31fa0b971ff33a3530e286c49f02bdb2c6abe7a5aab3a6a9af7fefe99⟩,
    ⟨0x6e41ee4f4fc738c4898f324a9002895ee07fe7e0b69642620bb2a0724366dbd9, 0x235c246891ac8399b7155ba9093ad8e3b4281780a9129ab4ac58fabcbf4c8e5d, 0x49e1a7b33aaa57a1fd4aa465dba2b29af55fc1c2e91fa05d44ab593990b2a38f, 0x5390ed6f802e4084fe1c88e1f8fe2a95d60be792b9435032da20b84cd4377172⟩,
    ⟨0x1f60effc0567adc2c17a9decd021ad0058ca28f03f29facfc7127a19b1503fe7, 0x1b1e944f979e885d5b436e811d4cdf4791a776e00858c0fa23fb7cbc099fd1df, 0x55e5ba51cbb88a1fe747934eb0f884b50f2f89890dfc085b5bee08e8028a95f9, 0x4c1be34597aa778fe2aef1bce7be59ebde81517d0d23ab25796c89954c9c6ef3⟩,
    ⟨0x3b0eee79220d39a95b9202ae1ccd6449e88c3592e29a42fc6cbef5f248e1ae8e, 0x15f339c90b0e6498c78c6a281109202746f52e0ef44738018248b2e5ee555409, 0x400b71ead1727603128184498fa6e7a0cc06f03593259bedb37ba6ce042c04e3, 0x487f67d3e5df4762aa7e90760cf83a8c0c434ee514a44fa42d0e3c33bdeaee96⟩,
    ⟨0x630729f67b0b1e4ae757c67c631a92c51744c8ad096073bdd5db41841e14492, 0x1c1e05c6a97bdec964b09bf1a6f2e7c8c8ce05beade5ac7c73038a983aa5740e, 0x58c83528c7f6463e773f16a91a16900f746497a331a770a831942bf83ceef26, 0x14c24da4cf9c8a099eba620957ea85be98636012adee22f68af932eb2fc7d547⟩,
    ⟨0x61db50ce2b200c7688deb4a8e9b8fa191962aa87ff881b427edc201340c2583a, 0x162af67e12e45e920d9426ee3fc54b6403d6388adf504bc24c217c96a1868a1, 0x6e0970cd9dc5fb97af2baf48be97248afe1c706a922f6043767623bd9eef63e6, 0x61fcdf0779fa12dcf45c93a96fed1e78d22e8364b1f4e81d35866c62760d5a66⟩,
    ⟨0x503c21488f256828f36bd2a1ec266e1b8222483b525566a3bfab760ac4ffb6ee, 0x6176f516ef55834a047894defd0c8ad8baac4bf18ff9015b1e0e67a36d02c312, 0x3fd77364aad311bb2ac037963dbe26d5eeec21cd865598a5a81335589b6bdf2c, 0x42b14d346958743e975d9048f83cddc63211526c605ad635bda77dc94b1ade03⟩,
    ⟨0x3328476c842c8d41516b001c29d89d45207d5588eb2514a5830b57fd0999ac76, 0x52d1e172e31c670a54511860a46511bee7ae07cc4016f50ed0b0673da47d51ea, 0x1320dd8d5d1b1a02d6f638fa992550d9959444ca0c5f26a1ac663b3286d063dc, 0x73e381bd975687ff93cfbcebed2d818ba4761f92b0bcce4f6ee9993e938b3c19⟩,
    ⟨0x6e27f7f63d62db31388163a8382ca78cd246e4c56bf01d6734f0484bfbddebd8, 0x1a1d84cb4495336af333d4fab58b0cbc62f6432afdaeaf75ad15a45322ff9548, 0x587f14d0fd72b93eeff22c429b5b616a9461876bd875df0bc950a768ace62b18, 0x40f8d090ab9e6da9f5ab09fd0d91d7266afd5e92f9f661c91be6e282b38d2984⟩,
    ⟨0x2a1f859743954abccd2c739404ed515e7e1492dc91c3d37ac298dd9fcb3f3f32, 0x5370612fd3e50f444e91d4c688936157af19c284fb7534ee57a1fe27388c054a, 0x5719f521f2b400142cf66b966f84472970a1c660d91987ad734c8555698c0cbc, 0x1af14f572d4fd8c5907297fcd9168c56adc5f4c5fbc34c675dabad95e119600b⟩,
    ⟨0x61237726ef4cea6d8c974a39454e2bbb33cb75b3f07687fcd6d77a8e2b580385, 0x28e559373af0ac004676be6242877bcbbf7fe8cd5c3caa8dd86718f3bbc14546, 0x528252a952f14dfc436e0a038a660f661999f4ac5edd75720578e4ad6d893779, 0x448e10720a1c075a9439a9e7825815e8baf68e75110be5a01a38afbfaaba2b25⟩,
    ⟨0x3cde052c8909b85b3cbe31fa7e69b610b9806dc346ddee74f2d493b27a51e419, 0x1e840036e645e8434503ba463847fcecf3add6da4715b8f65a8fa43a61d48eb3, 0x42b708c3f6ba6e354d9665631cccbf677c16fb3475a4568beadda90b40f3f20a, 0x14a6d2051fafc44efd54d398a837ec38e0d3e3a6655517fcb8c6d4f30195ca1b⟩,
    ⟨0x53aa35626fa35b04f9209d0be8526258875f4b15b34febd5cc8c9f14fe5f85eb, 0x21ad5adc1ce5f0bb5090b02d1e931c7bdf912271131605a0540d9b73849e0c5, 0x13c6875270273f09963a20370ebc244713ba0775cb9561299b5f8fca54eee39, 0x66313057ca75c955f91ced57c3fc9eb01b769bc7a394b4571a52fa02f729d2bc⟩,
    ⟨0x29168f1e8146dd1050cced13019a4f8e83d0d9971a0b2e9977b8548e032ddec1, 0xcb508ea27f21f64fc9f47343efbe7582f0787fde04ee7a5770160e66a0de342, 0x38386dc70ca2088d60376859e9bbbd0592dcbb890e7ae5b2fb06565c7f43e02, 0x2b0fef6a9814dd40df73933077710520c7d005a98512861d690a4e85f1583238⟩,
    ⟨0x6eb7772733025e7b247d5e950eaa54ac2746a458c73dc564b60487d224ce1b5d, 0x55af6fe91f9b5b3df9b3d9abdd52a6d464b6eb40158078897a5274f84dd6a017, 0x373a3b62f6850c00d062b96981d930370405b25b7aac8573833a367756972fb0, 0x15ebb25e2c0a3270ce436c40600978b9e933ea176e38054638a6d4813fab519f⟩]
  permRoundKeys := [⟨0x33259fda9fc11e3e6d7fd9093683f94e8bd4b1a3e1142ebdb188c6c70821544d, 0x117d527b78eb13903cd14428279eadf910d9489ec35a1fa34dc24994bd95405a, 0xe43e46ab1c0d4c4c121695ba20da62a3c25e4f2d090eb011dc2bad9eb614111, 0x1e95791ab2cd782eaa946e913ced2f0f37f96a2783965bf6382b5a0edb81a49⟩,
    ⟨0x5540174cac4e6d419e4512b2fbb6b66bd0a99e39a43464bbe2c3bf0a26c13015, 0x623baca63a7a0a5e51a3ae8939a7d809178283cc4acd23730a07d41bbbcc39fe, 0x1e7b18ba462494ee83fadc686a57c934f60b00dfbe93ef8b04d8b3077473bf85, 0x25aa205365e52fe1b6807fe466f51d3277f905b7d80a25cc352a8b3228332c63⟩,
    ⟨0x499da7edd9c2b00de78f53293af8d62f9916a402fe00d4e6c9ecc6cf725da25f, 0x436e855cf08f744961017630bc5f90e285516927160435352eec37f771ab695b, 0x3eb7f65e846cb424b34fdc3d7e2c814afb92e38e77b732893380b7f076701b90, 0x160bd2fd76fd07c046b1d8bef9c6447ed786a3b76a5e2c1881a4002816210d01⟩,
    ⟨0x54527105ac796a00507be29298aac743d9dc8668bd874a59f5fdffedea3a87a3, 0x28e36bf255f11886ff64dd3087b989e90e6cfb911722927da21a43ed4d154781, 0x57450381ef0249c8b057cc658ecbac9184a4ba883195e4ce9e85a99251c65032, 0x6cf6963918cd6ec536e564f8f5cc5eb25b49b13aad29505bbd900bc53fd66a49⟩,
    ⟨0x5311a134d3172da679a2fb378e35d7636bf14d157ab89a32a61dfc5f999d9da9, 0x3c0c0202b4a140e054cbc0b75b43a9555b0b0c4ff528adff79029d5f13911c49, 0x6f04a2e2bd343a1201f962b20315d5f769c18d96968466c657e0672edb9c6072, 0x49627f57d0c518c52b93a5e1cc695e1eb34d1ecbd42174e78bb8a615d1148ee1⟩,
    ⟨0x6fc0a2db8aa4b6b6a65fc25e102fba0beaf7b4d3b162ace511c304e31cb7f160, 0x63b60be1186314de9b2826d6c024e31be8738048b6735866f466ec121ff82826, 0x3ec168b51595186d413680fa811a1aaa64dad58f979bc0ddc7e2c5741b9f91c8, 0x4e7f7ed8ed42e57f070423539fa88f711737aab3642ec23371d5639ff9b333e3⟩,
    ⟨0x2457068fd385ddc52efa12343b564b598fac99a2b32b04a871b810fa16f73f54, 0x6d20e85ba7190cf3dc35c939ee8bb90b64ccdddc5453c3ffbff067a56de0b42a, 0x127f48cb27a38d7f78f36ece2da84698eb368c7ca72a275117536e994155fa77, 0x47c3810a9a8a844c3a11a0b8aeb465ac2a92255d25157d4e664dacf70b8315ab⟩,
    ⟨0x31f6e5e442a6333db6228e795cf3a05113659d04b89c2c265f1a1cde411a7ca1, 0x23e1d1359d54fcffa87715605e0027cb664723c9b3489c410b89eec2efcff2fd, 0x26baace38190af9c56ff2dc7e3fe9276d2c5581f95bae19802222811f59b3897, 0x65953d07089d099184cbe68e3f4752cf60a5f58347fe79fef96ca51062315d4d⟩,
    ⟨0x54850409a5c90ac150741b313b84639b38ef2ebdd15b6d33ea2c9602ad8bdf3d, 0x2a7f028ac72ede8817a264f1ff88a08a7341f33ba084a6dc7f4758e39738d8b5, 0x4978a44ec03c4ae363d0ddfbe90b5aa80d8646865ba2e7b837477625a15b4316, 0x624ae56e3b758ce7c2ec5fbdab3034d37e8829454dcbc7ae4f17fe67c1c5062a⟩,
    ⟨0x354698699ed7b7d76fe29f8d30e88f3db7af433b3a8b5b8f081d475eff1d932e, 0x4bbc4ffe8d3ad3162d0efaf684b43967459afe1e59daa40cc6eeb69a7f5efec3, 0x3bd36ff3d671ba61cec78f14750d38f79e8dcbce662316b301e1744d2ce93378, 0x2680e4184ec6483f2581151f2c294ebb814f7551dc9846aef5fab2049a8ae20e⟩,
    ⟨0x731931a21c681b804fcabae0ec7e73e3c9f176fb0e79e659dd6328a0473034d2, 0x37c307bf092ca95f712c2909ecac97e0d62e99c0aaf5a5a4e4dde16712ccf4b, 0x123f31b43f15093dfe4526d922b0e0293ff3c2454cfc5903c235756f2aa39576, 0x21ab08b6035f2fdd75979f0a4816e6bfb01e5e3a467bf0607b98ce7f022a05d0⟩,
    ⟨0x55beb26f6b52a265bd86e2ba55e55394b656a3763c8a3659aabb6b63cc99413c, 0x32af1145d69d5b1cbbf0de3494bb2b4e3a9e4c069c1214cb797bc9267baad47a, 0x561d59f10c470cbb0891895bef3affca46699dcadf7e33bf2a2ee10283ee3a7e, 0x199baeb4a80f483bf3fcfdb9d7500eeab72ae6a1ead13219b6ed01023c940862⟩,
    ⟨0x514a7c362dd68c31f12327151f4424ba1c64771d50ede262c85bfb6c9b2f32e, 0x68e937b83a1af14fe60fd1612ceb7bbcaabfa9ba0c931713d735d47b48e70aa4, 0x3576e0923547f582f050e63029cab635f5f3ebecb2bd533763179ec0b6661147, 0x20eda7d9e376651d673405d8f855b2d4b1ff5ac4197e9ec08906c16729611088⟩,
    ⟨0x40ff3820d930a1bf8bc3c4e380340c056a1c47fd3e9b2b204229a67e7bf137b0, 0x508b98a514cc2dab64b1fa0dc78c5fa43e56705cdb2859682fbe96403ffa778f, 0x50ae0cb4a160f4b959153d99998da92c04ddfe04a414fd93fd368f472df6f7a6, 0x580d2b7ecce6d82fa9ff3c1f5e4adb2180f68969cf263625f58cc32b689488da⟩,
    ⟨0x510e5471f69b9bf4c45cae7bb2bc3939bc4a06b28ae833406b9190e1445d2513, 0x540d298f50b6fc9246699e049241489be3a90e8404d1edc1d4d4e390b7d090d5, 0x383b79035d204538a25a786971aa1bc6e01f41c3e66ac4191dd34e650356f37f, 0x49b4040e3cc3c57737fb01071b4656fada72eede247174ef7df53cc6c3eda39f⟩,
    ⟨0x4fb8622b4874152edafcc15f5047f4337ee5d9c33d3f6bdb750bdec69f69bbd9, 0x2101c96f215c5fbfdd69377517cf4a9aabc0734a9d17d22cbe5462e59730d8d8, 0x6656e758793272aa047646be92cc5e6d098291ac4e3382327da7a3b3789f6028, 0x1f3298337ddd533551eacc2c531406f600c3f3526e152c30c7ebce8773266901⟩,
    ⟨0x33f952d4ec7515be02ce0fcaa3df2a9023999f090895910fd54a201af377ee2f, 0x2451c3ff28061d05f60c8a7ac0e5987865ea82a45240675d23976edc88d2aa5f, 0x58c79c6e1f1bdff8d04b635709b334893a12ae51026b93b5c6013b00e38d6e89, 0x3a83b2d07fc247b5f037dde05d1c3db13c0739e1781d5c67e7dceb69c511656d⟩,
    ⟨0x1c7ee92866e377549b754c261f59d79f2a3ed5b8fe37579079ac75117be9c71d, 0xefff9a80100157ea88b5275a9ec590905b72e2d61e977c93cffc9bf262efd66, 0x61e7d49f85242d083f1a1dad392d3fd57ae4bfe741bd4af6b137404ef3e7d428, 0x2fb4a97b0f10a82f4c2e8a7c226842311c8175358f13d827d3e20b846b702bc4⟩,
    ⟨0x55821fd071347d5555494ad56626a41c71408c6a22c069afc5f1f0188e4c1aaf, 0x28f72d645ed4c81e693ba2247f0270b4fc2683407462e5be7453fdddb92c9ded, 0x57ee4952586c76399fff7d3f863ac465103d9b02ade695d82fec6c9efdcf6e18, 0x6b9b5596826415eb09daeeaa67c07f9fe575560053c9a13e879babb22dbeb92b⟩,
    ⟨0x399e6b58ba8adaeb328cde7ee31fe4669cfceff496c807aa75759eafec761af5, 0x361d0127b5cb0b571974efa4d181ec42c28dba455ddb5f6fbb974f3099fe9822, 0x4f08fbd2c51143511bd1851102aa44596a1e76a02601fa120033884d7bd25306, 0x69abf6961b9af0cdfd94b052f032b3b897e5ec98fd516a650b8c3e6a089800be⟩,
    ⟨0x58b87531930c605be9dbac4cf9898d580d99d6c738253c87b5fe73550c16f8da, 0x32bf1270d52e617ab22c3cfdc330602cb1664a8d303571abf56d01288c44aa11, 0x42115d035774e02267350fa36efffd9ad737bb8195c781d5b5779965e3680219, 0x2388ed0092c510af7d17081de5dba5622fafdafde34cdaa119f265cf21903f72⟩,
    ⟨0x3604fbefd784c6ef0d3f0d411980e472607ee7ee8732c2aa78eecbdf8cc8cad3, 0x64dcf1c35781cc5f8352632241d0df9c40a0b4e0ca126483354b9bd5399c0dcb, 0x66e2ed129f2c0e5486ebdf10763a7818167879c7aa26fa90dae24d849cd34b10, 0x61eb5aeb39f6f34a8ffbb14b18dab547fae50583e63bc745b4722b08a128fa81⟩,
    ⟨0x359d441547f0a5086db047cdd0057e9ce956502fad36f5bb78b8999ecc80dac1, 0x384c4851adc97e62a8719e2d2b51b8b47e46a747d3a41a120ddc9e2740392807, 0x6ad3924a2ea4bd220e3e81489175e6a49885d75ccf07cbebc5523a30b1e308f7, 0x3c9d34dee4328bfdb66a7d5305a860a677b7ee7c90cfd662338bed88f260d372⟩,
    ⟨0x70c26163c975b26bc00eafdb762f66a1182e851b3fe85174b5444c9959562c, 0xbf57b072baffda577e7bba73ada462fc1bc31a77e259ff20a01a21a8a98751f, 0x1db3781c0db9bce943d79e33317757b6a8502f840bbf61de31c39833a27dd2c4, 0x55cf2d772c2d72cac8496b61d68d44ad32745b2fc6d815d50bb58f7210907492⟩,
    ⟨0x27e935c29d82645af555399ee95e1acec870bd7485a1cdce5959aea91616269b, 0x26b21b4afa8d49300fc6f2b883df706db60808ebb72e308360be148f05de3c, 0x662dbe7c27db37c539c5ee6a0e04194eb259f15cca409e73ae1dec032208552, 0x47d0f37b080f43f4285cb3b02765a1b3a78601e5b4d3eb424d5b41ed61497f44⟩]

/-- the modulus of the BLS12-377 scalar field -/
def p_ed377 : ℕ := 8444461749428370424248824938781546531375899335154063827935233455917409239041

/-- `rescue_constants/ed_on_bls12_377_base.rs:1-1332` -/
def ed377 : Consts where
  A := 11
  aInv := [0x655422e8ba2e8ba3, 0xec45a72d92e8ba2f, 0x37d9565ea88aa746, 0xf466a36210d4175]
  mds := ⟨⟨0x12ab655e9a2ca55660b44d1e5c37b00159aa76fed00000010a117ffff93df5c1, 0x12ab655e9a2ca55660b44d1e5c37b00159aa76fed00000010a117ed986db5d41, 0x12ab655e9a2ca55660b44d1e5c37b00159aa76fed000000109e18e65fd6b3641, 0x12ab655e9a2ca55660b44d1e5c37b00159aa76fecffffff93fb8708aa0c3ac41⟩,
    ⟨0x7146a48, 0x13477d11518, 0x3238da888d1d78, 0x8291ee24578700fb8⟩,
    ⟨0x12ab655e9a2ca55660b44d1e5c37b00159aa76fed00000010a117fffffad7467, 0x12ab655e9a2ca55660b44d1e5c37b00159aa76fed00000010a117ff1fa3b62db, 0x12ab655e9a2ca55660b44d1e5c37b00159aa76fed00000010a0f37985dbaef93, 0x12ab655e9a2ca55660b44d1e5c37b00159aa76fed0000000ab1bba61654e3a63⟩,
    ⟨0x2b93, 0x7182acf, 0x1271c4cbcb7, 0x2ff2ce817e09a7⟩⟩
  initVec := ⟨0xfe851dd7f135b71a33f27bc19e293dffab4490bce2b4983beb1450108214b0e, 0x592e4c2f85bd3a064eb3dd41ff7f942a746d4dcfec540e9c99c77dbd953576, 0x1280abf008a7200012b198a7135988da09f9adfaddb6ca0c72e2391ceb613803, 0x4d946a84b6716f4e3a2434cca950c34d7651b7d149c0553a81db36cedb80ecf⟩
  keyInjection := [⟨0x4d76a1758c82f5d9bb00afc72caa6d7e3bae3b295a2c5cd02d65262e1891183, 0x61f33937f91301b1cbd5937f68dda843cd57364ba674d822e2f0f52e4040146, 0x1046728a24183af641f09bf5abe2681e0b4fbb1c0cbe1f1dd5f8f16b00e4e631, 0x26c366723d46f9b674650e14df665cca580852750d94882feeb8405b19282d0⟩,
    ⟨0x341dcffcf7730576db81565b66d1cbe52704dbe45279c969299b3841b4abf8f, 0x75a63b987ecbf4a004ff1682db216f1bc8a1d6915802aefda599cd67dd731af, 0x103aa57f463ea3458c813c3c7d78681411c760356c6fb45a1f0a357a0bf62e89, 0x97c709f3e603ef6cebebb76c123688beda5dc357d89c79a0d7278e279769e31⟩,
    ⟨0xd137e130f1150b64f8ac763cd875fd54a804b13800df1b4fdf0079d5253295e, 0x6b1557b13653407b6a9e83c536548fa8f037c5558d7cb875276d5a6d588e0ff, 0x44ea03ef844dcc492219d2074ddc2355b5f2e6224ecf777ea3dbccff1a03b72, 0x754f4c06764f2896059a6c052adac40113af18ec6a39a1fc2cdb97e6541d7ed⟩,
    ⟨0xc933cdf64cf8fb52fc3e4b790614f7e48da26aa3786a43c1f3f22585b9ee0ac, 0x11d3f6f68d83e81f9053e6a03d767b82136f76d2720e6da1285ed656506a879d, 0x784f4674e11174f91c8271664af09a73115ecc48c03822b24cef7e53277049e, 0x3a9e1c26d83cd6654ada316b85a1ad1f01dab3b9c4e9fd883e20ed557076d22⟩,
    ⟨0xfddb85452bdf08519daeeefbe76122c9a58d46b1f8af584310fa355161998d2, 0xbc0d45d2becdb94833cd9d9caf49a93cd39fb9c09e7dae6a2c4ccb7c381c631, 0xbd7a6d11e1fa36d9a1e7ec3e094870fec0af0fd26a866763b71851ffa811222, 0xf11a5d09bec836dbe4b3a296057a26a30d90b8c56ad70f088c0972c50e85940⟩,
    ⟨0x1c361a6ba7d011b920e0bd934d4885ace32ebe75c409ad9b0419825e28537bc, 0x4fa9b5e6684bc2fc74e3f6eef3b3fe388bb7f859aae773434487305eef9ebcd, 0xf52c908685ebe77fa351e0ede3d62e889a42e2d9700a6926f2c531d64a181ae, 0x2709ff1cf50d85b8ded5cd703b8e66ffa36ef6bc0468d97044ecf8e82511bd9⟩,
    ⟨0x128f591402c6d53c2d95a3ed06135e429e11c293225b6d0844877d574650fdb4, 0x44a286ea24c0d19564abfa974a450487ca3f1f6b350c9bbadf1b632a6840371, 0x211f1acb8418c38dbd6972e25f45d04525d91f1fd8af47654b93a9c5cbe4cd6, 0xe22fd587d841a581ddb4edcf64ea63617869a5a7988fe3145c6365f0a625aba⟩,
    ⟨0x275461800d9be1d8aa706f2d78630076a3cd6f015ccadb3ec115b932778ee14, 0xb642b982cf5df4177cc1124982a00c1f0f16d0aed4a06168278aa9403362d8b, 0x9f39f80c204386684243a541628a59b548520f0a27c1e286f48a2a5e5507ff2, 0x67f9ff8b3bb6e9e7410e412c77781c2eb09d02a3dd4311a0522057ba68c36a5⟩,
    ⟨0x6e355bb975cbb82d305788f0a17a173d68529cf8bfde94d4b7ff1a188d9ef42, 0x51f88f324ae2d1326ac6e7803a760a73ac97e396bc9c4e271b61af1c482036d, 0x12977b6675bde1eef8d1e655d7dc2d3c5a316dae5e6016bbf2116db779a80c43, 0xdbacfb8c1ad2cf6d0712bbeda8a9f5d0528f71b8aafd8f47b93b5be758cd584⟩,
    ⟨0x3d63ee208b798d0e2e52b58f122f5d185a24126eb04524e5394abc6175727d0, 0xbfde174bbd7ad8a8641255a0cf56a7729a6c5f1294ecffc69c62c203e209712, 0xf4ff4655c59ea613fbe5b5d5858dfed607c5c79787f1905b6ac92d818bdcc75, 0xb351a8c15b4bd1aacdb1c6269cb167ae940a84aa97d707661096764e17c52a6⟩,
    ⟨0x536242daf9751c7f315857635bb5c16b39d211aec7933a75b5573a3f1440300, 0xed6d7b9339c6a1767089e3abf310eb3bdb2e450cef8e9ad0e7f947c02a9dba9, 0x2ab9a330c229a0a2c9892921920fa834c1f62481ac9a5a77eea60a0a547c153, 0xec5dd1b28fdf2d67263697d4374c74e04fdb0f0e1668ba5c5dcb09ae29ae097⟩,
    ⟨0x274ecaf51636e1894305873f57ba3587ee7a20bd9592dcd30b7b8ba9be19ea2, 0xcbc798c79c738f9af23f8f41dde04461942f049626697532945fd1bb0e5f0ed, 0xb0397c4295c41c116d6636788c1e6e4d077a790e38dff8281f58d8b4487f73e, 0x1103eeef49cb8555cb0ef57fd3243255126bac7e2eca0bc1d572acb3ee619816⟩,
    ⟨0x500ae63f1a7ba7fd072da48ae42b14e62011a2d8258ecfb7cf66f455eed999b, 0x7e4b5dba5f98f7a65e7c204e8de8bd51f5b8de85e9c0e73c5d0b605938c2be3, 0x88b9903e7abf2ce61a96ccf21160c349b05ee7885360508f5dc6ef2093f3696, 0xc8e5f26580436683e12a6dc9fa434d6d0db091301204e5ce148497118607f51⟩,
    ⟨0x642bc1c14b6fce8cc7971631afefdcbb675a257066f11c11cb1b24cb0977d92, 0xd99bae833ae3f2f0284ec0d6c904a9cb697bbfb3b5ad5b45284c5bd4c43a423, 0xb1e99613c8b21661c8a0db4fe51d948f32b38bbd5381b7d20765f42d2403590, 0x733d44c68a4306a47f6f89ea4b8e93748ccbd156ac1533472c69dd343d99180⟩,
    ⟨0xdd07331f0abf312edd6c88643cc2f3cbaa5bfa918a5f159248a47e79cf5656d, 0xb95f61db757f390b02b97ea17c432ebcdeaa70b43e5eafd19776f7c690e6ae1, 0x126b3e275f4647c10688ce83ef756a4948b30a06bdfb3504e8b70bef00a02658, 0xa29f9d5e31ecee6c972a6b7852899fabe7757ad12ff39999c95b105bb966ed4⟩,
    ⟨0x9c1a4219db3a65f7327e3a9cfc5f52442910ff9dcf26ccc77956566aa6dc18f, 0x8b872bf1dc14bc57ddba4927ebed9c03a6fdc0dad499648419df6dcba658625, 0x11cfe35c7612c4dda66dbd43bc5dce0d603b69581ec34146c41259d7722f3cab, 0x33a456fd93a11e3cd9c02f35ec475e4758361dacadf4aca43035507386be2bd⟩,
    ⟨0x6942f2c804305bd0e5b162e99bf1a60d1196f984c1c2f9e71d3a0667ed660cd, 0x10fae3862a351900295bac24ebe570493773714f0387ecd8e7e64255a3b8c68b, 0x117fe637ac558808e0ac16c44547e88b64dc8b630d5b6cf8349095701614bc78, 0x1143565ce031a0fe9851cb4605d6151576462dbc3b4e00cc37027f3c7b4d7dcf⟩,
    ⟨0x4257bbec2bfb09e331e815ab766f39634b15986e941f005a7de51426388c45, 0x111a716abda46fb83afd578d13c9e2df8ad0683f4e66830fdc9e3bfebc7be404, 0x43a47e372916c731b944231475ed4c7ec9dc742a24b8981719927fbd011128e, 0x116e48afb931e10b8f3481f94890002fa748925baa337acca29bb6486dd554fe⟩,
    ⟨0x17634491e7b5c743cb301938a02f3ee40b6f8ec24c09537fd67c48b3cf92584, 0xce0f8a2cab2511a21bd392510540ee85b713a742a472a263118007c0bc74625, 0xc4d5331bd5b15b0c1e030f1f23dfccbfc248025b6b3dc6cb5eb8f7f31d91343, 0xad44d4749a4aa9646f9bd95663227d45b58149817233c49b5a15ab3dc79b456⟩,
    ⟨0x11577933d1dd7e5ddf5e330b5540a7867056d89726da5232c2bbee959998a995, 0xb5bcbd4e1ab349b54e77a4c85c2ccd03cb697734e695b1783bdb0afc2111073, 0x6d9874954941405ee60fae0347abec80ccb943e17a5febcff2e904ad2c99103, 0x1061b83cda87a79b9f7ef76f33d4c8f3f9f096322cb2379166c49e7bf848b33c⟩,
    ⟨0x219c8347f963c3601214502c0fbafa9bdac3efc02a84d7a9f5f2d2b511bf9b7, 0x26d464e5d0c605857b9eadd103fb990bd7db08beafeb8e208419774e8ba27e4, 0xf37567303b0174c08946287d8cd7acada277509751645e790abda0facb539ac, 0x1012b33d4beb324a104a901c0020ed0c43bd4e98d74d83a0242e764c5514ea75⟩,
    ⟨0x193f5703ef2371f2f2fa0581f8d270992f6787c23a14c96c0054e9e15e4d0e1, 0x40bba3d120ef0558b3e2a803eba065940348ea49eeeb06bc6c206e461621fcc, 0x5d0858482676bd60e077900d9f392f5e932d8912097cc7881b058601375511e, 0x9db9adb34823a583a8f783b6ad3aa38813bd95810a356ed9e7d07e941751e69⟩,
    ⟨0x3f3c90a67acd832f07e6341c30b40acafc19bdd9572dcfcea4c5d69b4349b99, 0xb7d2553278a0878ff0c283e7a1e5c8319d4c49c8f94e9a6d74aac3687250963, 0x578f825659908fed177b5284ae51dea83ce2924fbc4185656422ba5e5024e24, 0x120511c1611b5de8b3585fa75d5c5f1c1e62233fc2c14a2191c9e65b9797c056⟩,
    ⟨0x10b33caf81462b2398aa8fd63be150a08a51cd42cc503787ecde659ed3913efb, 0x11d56df695598d2e2b8e8dd462f2ae0bc1f1edf92d3b6be4610b03c4bf235c9e, 0xf2a4101618f9e02cb2638cbe97aa6bb103af40c2772c2f36bca93f5d66b4f0, 0x2465793f0aa57898960a9184461a87b36e8becb834010b13897172ee4d97414⟩]
  permRoundKeys := [⟨0xfe851dd7f135b71a33f27bc19e293dffab4490bce2b4983beb1450108214b0e, 0x592e4c2f85bd3a064eb3dd41ff7f942a746d4dcfec540e9c99c77dbd953576, 0x1280abf008a7200012b198a7135988da09f9adfaddb6ca0c72e2391ceb613803, 0x4d946a84b6716f4e3a2434cca950c34d7651b7d149c0553a81db36cedb80ecf⟩,
    ⟨0xaf4fab91dffa400dccbd4ad1f804c4534ca91e579bb1b9a500b59de359fa8fa, 0x116b749855a33e4553016f2f40cfd9194f5e1ed16a7ce71c8429df9dd27c316d, 0xe3884e8f75247d74e0484ba4eb8d32d1d35480fe23d2e3dea828403600f1cd, 0x8d91a277265e949df84c623079ff7b4244333cdd56b960231a360020dcb8ff1⟩,
    ⟨0x10c56ee02f2e1e05caa16b20d1f83d11a66f38b9b612d27f2e95c315e75ca08b, 0x9d2c8d439666f09173c47b83030628e7d25f4a87e49305f8b1035348bd23220, 0xfe8b3a26ab849881a9e4f2ae7b15cedf1e0364fac2ae7f0fa7b1468b61ab4a5, 0x12aaac0908691a93a221ecb74df683d52b4b85675a3dbc64cf9472469de8935a⟩,
    ⟨0xa4fde20123b1b264c72adb1fc3d7b0196727d9efd43d6ca0bdac6c460c44dee, 0x1e40a05433db7184e0b29cf05e6bb6fe985fd4e35c1cac55d26338b1e7cc02c, 0xdcafcac72bcb7dcedd9d999c42975de0b58f832b5770d1eea9adbd5532dc928, 0xa966a16593b7e56898223338cefd9c639ea47778a4ffe8d1281fba7c4f3155e⟩,
    ⟨0x5942dd60b1f4559444113603d7b700b600898ed3212bc95e591c26f1e90afa5, 0x8b6daf5e5e3205c7c9bd1fc5e4e0a551883725dd6d53c0e679af2fdd63b4fef, 0xc18e92f63721e0b86d27f26934b556f87e4209ebfed798e3e7b15a2fff3f3f2, 0x101977e965b18d585da7afb08d4a01401e350832ac3b70b7812386daf09e285b⟩,
    ⟨0x10e30521f8c49920e878105f793fb7cd6735e98e03eb64e6c61a60eea02247d2, 0x640cd237ab8f5607637785047a84ae50277534c1f5e3b76ddf9dde390b76331, 0x663e9f8c805dc296746d4bdd1b5180dc4ee4dd896c0099192df29984494612a, 0x56cf78e72d29bac09704a9a51d8432416a96f88c3c67780498233030d5531b8⟩,
    ⟨0x486254682e17f20dc7c2629777706325d65ab54dd22f329a5b90e2897a8e007, 0x83a9c2bed3cf9f8bea43570b4f68caeed5ac24e5eb6a2b1ad5be65922056015, 0x4d8f332e4d2f670304c87738dcc03770d4f1107ffac9ce314050a25f37da888, 0x6d699f0ae1fffbc5a99c0aef45bcbb557c46b00f7dc70162cf7bd26176e52f8⟩,
    ⟨0x114e5d9d9ac2ded73245e98048925a7875ebc90c72b052bd35a2d8dcecd561c9, 0x8795fde96fd1e1c8c471a134a389579242407a2efa21fe32c25ced411c1dfff, 0x1091837073ef806d9d627f9b9a47e1ae8eba3e4a13b80db4a3a1d6fcefe34253, 0x69c965239ffb43bc082f8a8b7ff662803216e63ccb575e7ce641c44b8da7c06⟩,
    ⟨0x52f98df53d901c5a0187f64e23350b3536499023220ce0c3f784d4c0ccdf5a1, 0x10d1d4dfc136c5c3c1e0cb7b6003b585dc9bfb5d03f4934bd46b06d640e0bcce, 0x550a1a3731ab3c995d027542ef311f2ff75db5c3e4c5859a3485cd98827f1c4, 0x7bec048568da5a8b880c4a9a86228e46de26fe3bad39c7595f47d9d372745be⟩,
    ⟨0x117975a9f51682a378d8a81b8713132ed5ec04ee1fb8b6b64796a33fba28cecc, 0xed8b568abec772e2a7f156b48a064faea4232e3e9aedef8c791c9f3029f1812, 0x99e7499126881e919ad7416a633be8b122084f0390cc00363a8d44248ded31d, 0x3a756a84de2f2d926fb67c8e05ce8161470536398932649548791bbf06f949a⟩,
    ⟨0xb98fd95c2428ee4d430922550b83fc8707dadfdfb794f07081fbbf6e3105c45, 0x119f2f13f459e7cdb58addc30a770d46f6b904d9b114650adeb61fe017580134, 0xabbb571292788c06c4dca027fd65ef50bdd2af4cc68424ae29cd607c8ed8682, 0xf342ebfc61f699c2240941eb8fe046968caebac7a69a966826454c270add646⟩,
    ⟨0x4fa32b893d9353417471184dc95d5c116ddbfaf0e8cbb5d6564fc7ccae2cbe8, 0x116d6cc33254adff75037731eb18b25f2240de090223a40437056ed018a8bf1, 0x6b076cd9d9238b739ccb07383f5845bb91fca042aa1214112bb660155fa44d, 0x37b0f0f37634bb2e8717f6c703c31f3b0f0ec8b3f9e4900fdfcf2fb3fe3e238⟩,
    ⟨0x112d9e0e346dd82d7bfad9b31380519a9033956ce64e5257c4709cce953277ed, 0x8dbccb99c1209379e4d2e4ee9d98e65fb43fda29522bc02ccdc5b63d7dd5d6f, 0xcc33dc2bb8ecb51f38849c80216a00297e4cc6b9e0ce5a00844b6f2907af4a7, 0x72dbe2773a7d70c4d5e6c5600d9d26b53015efd48823996acfb73af7aa9520c⟩,
    ⟨0x6b42549d272307ca3f990a72795745f817e1b0eeab9c58a960e45b7ccf373a6, 0x45b205bb6ab88499f01634198d8d9d3bd7250b767b45d828918c51367d0ceee, 0x50e7f6df0257cfcfe0d57cba78ef01d2f18f26ad142f275726c03539a43668, 0x24e917200604e8d5b91f98da52793b8f0fc51e87973b12cfbe7ae8ca0d061c2⟩,
    ⟨0x449c2a0c3a3b106a0e4aed04a6d63290e389764dcdba4e5b36bf73501ea7386, 0x9034a15a88b0250bb49b28bda2c9cef77a5449892e9ad9db0e092fca2426b13, 0x1118f2e3b8a4fe57bef019f4deed2923e31d1ce01cb89dcaec633086059027ae, 0x40b57b1bd48f8fae64fcb008a114a52a5f2183d85ffcc83d9308e985995a348⟩,
    ⟨0x9b2fcc406217b31b644548fe57ba2e8098860aff11f2d41d32ad182e6d5e057, 0x64a4a5a1bc801f00a5d1d4c387bf6dd868d8b8d8ff4add155bbe489d48466d5, 0xe6c3529698ef4f77833c53bed8492f3ddcb3a9fa6fa37f3321f3d2c30dd74c, 0x4105b2667e85b11aea6c77c427231dfaea3cea8fed9a11bbb016b7dd49d346d⟩,
    ⟨0xba6a8c853c14fff66a454522f24e996b96f0ce8b902c01d0ba073a5ababa957, 0xc4e98e153a3ed111588c7a68de047c58363fb3d52e2fb1d9ea79bc0935766e1, 0xed9b419d5f94201e9cb0f7e7d246f2eb8c1b6449187a04fdf2924c3e8f45eae, 0xcd2a1386c28911f191167e04c59854f3ad04fe7a61ec6d57d4331f44d3881c4⟩,
    ⟨0x10df1102969bfd753f9dbd23944366d679b46afaaa610301104f3e836d931a43, 0xefa4a9efa252be202b432e55b706831aa46783c5f818df4a099a7a0f6c1211b, 0xd9405c492669da91add9e3fedc276c1dd948889462b8320dcd61710947a074f, 0xfe279d2af890f35c9987dbe3cad66cc6df0e0078562d6c56b9481b1225ffd11⟩,
    ⟨0xcb4752fc6436b0b743e3b0b86a6669b65549798f4fc7a9cc45859142460b726, 0xc4f5302c3f2fc711c62e85e027552aecf6b0f714e205c083e24f2102761ccee, 0xfa5437e18336c5178191dbb0a1c846c87a5979eac99c5d167a11cf32bb7ed4c, 0xe7068ac7f7be6be044964439a0ff5ef968a5647da52f25c39254e0ee1ae818⟩,
    ⟨0x278a5697060110d8a413fe44144bf406f4ab94e37455b9922ae93a8274136d1, 0x8df0e4b53a90073adea88ac26badbfd401ea6207ebbf92db53cbfc78a806202, 0x255d7339c5385f77af92bfd0a968061270d0b93b144d13f0d4ebdc821322b82, 0x20e38969965aac9008be028599027f6aebe5f0f8fa3adab521bbeaa9f4fd1ae⟩,
    ⟨0x542ecaf616a20d3f6b31df1a5f1fd7c9b4ea04baeae0013d9b3fb9f6de8f558, 0xd994c5f155b6dd5656e2223877b812bdddd4fd728f5041ee4d70f6cc7505dfe, 0x4f762614e74c915ba319cdb56983beb4c43edfe24c14b342ea3313b229ca068, 0x865c79f490c5be38f5d66261f20cef7435435d16c15193055e759874d79891c⟩,
    ⟨0x1159864a7827e5b574b9b898f400a5322be0fbff2fbf22803858e702be872d22, 0x78ffa153f84f37971c9cba211bbd54e8a726e66e501fc8a72fa89b4934ea871, 0x6360e271e735d63a2a5a6de508d247b8cf080ec8a769058b66827f97c6696a, 0x3a499d0d19534cbe4db3feae72456f4558a0c6c7f480bd17c312b7e923ab5e0⟩,
    ⟨0x9e502b6c07bf7781b62be259f42f18ce2c5a4c76c29edb81ab29d4ff4fe2bb3, 0xb29d23386cc36cc379b12c56ec88fb7d16119da3ae10a3ee1422aadf135fa65, 0x35d32bde8d21e8fae26db461d9cdcb704f261033d59ff2a8ea9008fab58dec3, 0xbf910e8fd5ff1b7b6cc86316695f80bd924082679e7a01ecf6b05e87ee81914⟩,
    ⟨0x5924b144f5321e20d8879057b924da4435a54d984c4afac8fc0ec71771e6dea, 0xb73609e436bcede77ac3f5e6280255c06e371f4582a308b53ae08182df5f684, 0x62caae25b816fa35a41d1690a7ad77853f91adfcf81c5c74fb81f872baedc37, 0x304e9cace95865f8cfe77ae6a38181efeb85c0a15dc27b2934cce7796b8ed6⟩,
    ⟨0x3da383b2feaeeb2ff0f414efcfdb1bf763d6cc195b66cf2d906b5ac3e7afbfb, 0x50ba2e6a3cacc46d7be3581b72fb2eb30331129b713d35ca16346a97f61be06, 0xa72890f89380f5e5b7043fae381255b4fb2b1444e5bced452dcb4685070b186, 0x1025a3891f3042dce5530bdf09d5ec980903a1208dd84b4d77955731322914a8⟩]

/-- the modulus of the BN254 scalar field -/
def p_ed254 : ℕ := 21888242871839275222246405745257275088548364400416034343698204186575808495617

/-- `rescue_constants/ed_on_bn254_base.rs:1-1308` -/
def ed254 : Consts where
  A := 5
  aInv := [0xcfe7f7a98ccccccd, 0x535cb9d394945a0d, 0x93736af8679aad17, 0x26b6a528b427b354]
  mds := ⟨⟨0x30644e72e131a029b85045b68181585d2833e84879b9709143e1f593efffc2f8, 0x30644e72e131a029b85045b68181585d2833e84879b9709143e1f593efdace85, 0x30644e72e131a029b85045b68181585d2833e84879b9709143e1f593dd16ac1f, 0x30644e72e131a029b85045b68181585d2833e84879b9709143e1f58aa128b6c5⟩,
    ⟨0x4c2c, 0x2e2dc7, 0x1774c89c, 0xb8adfc3ee⟩,
    ⟨0x30644e72e131a029b85045b68181585d2833e84879b9709143e1f593effff043, 0x30644e72e131a029b85045b68181585d2833e84879b9709143e1f593eff6b465, 0x30644e72e131a029b85045b68181585d2833e84879b9709143e1f593eb4d80ec, 0x30644e72e131a029b85045b68181585d2833e84879b9709143e1f591a0dfb455⟩,
    ⟨0x9c, 0x4f52, 0x270a5c, 0x1317d0fb⟩⟩
  initVec := ⟨0x204ef5195a249af9f0ecafa3e5d186d6318a5af08a0ceb9731351045082151d3, 0xd525fbb687d48648b6a0ffbf1c9e97be39cff22d46aa165c3278a5dd953d6f, 0x10b1159c4fdead8c4e6ba55d1bc8338364a6c05eef88185f72da1f178b613ea4, 0x823fa86ed409e6816795278dac56b0e475e16c412fb04ee260bb3b55db81736⟩
  keyInjection := [⟨0x1dd6338502743892b8719c7799d94a1324a8fa7eb700fa86d1f969aaab964193, 0x2535091a3d1fc0afbac1189e0a366ed6363e065fc11f1421d1ed791b664b14b4, 0xb6b3f2e2adf23a4ab67199c016abb10578ce328b8d154a5d3a257da5055be8d, 0x2763cb4d7ba3330fc51dfc93f62b5c751b333e483db8c194997c99a4d3f1e682⟩,
    ⟨0x2a95588ee929b375792ff4f7a145274bf6a06619abca835f97d5abf56fd83529, 0x13f4ebb68dd1eace4da44ccc14a5b82e1feecb45b6d45fa0781133013b16c4ec, 0x1a23ac87244c1d788836612eb27f95ab4bf36a92021510a5dc605bc1c9607fb, 0x2fe5da14dcef6c4d43fbf9f4e2ee60d74c917129457d8c23a59f7c62c857f40c⟩,
    ⟨0x1bc00b2f1777b7aecbc4508dd8779da62492fd36f2a9eb214bb8ce8bc5e833fd, 0x24e5b9e594d5b3441c8437d49659610380b29fdbed3b3bf4920288dba1879d1a, 0x1f8b79964c2612248cb7010a992ec6f51bb13558aae6e350087e48373cd4f497, 0x2a1999e24454db6b412e07d71036bd875e179e11fc739748d58145a0cadcec0⟩,
    ⟨0x56048e45b28ccffcc73d50a3581360149521e41aa4273d932fd47889245fc6d, 0x5174acf7969147622a72420db449905da6d9fc352bfc37c68c5a6c5bf1b5c1a, 0x1e5277ce0fa003be015087bf3d72858aeec220d04bc8467e84d0788fa12755d8, 0x1ec0037f2e8f1baf3762fc7b7c6d90febc5203f4ea2ab8d030e4ef2fb98cd72e⟩,
    ⟨0x2ba7e717b1595732634f0272836fb36c3436ba501d5368724d908466fc124481, 0x25b40cdb48dd19e00dbe259e3a2b191fa2c8390f2d459db9607bcc77d5edb579, 0x16f024764d5305c01c60a8d24947a8c6deddfbc5bc1644cedbde5d1153c0aebd, 0x18c7067b61349a774bb582d2f04663aaf3abf9c5f342e5298710b5cf356465ec⟩,
    ⟨0xa339bf14cf2bbf04b473ea33d96bef97188ae8ace419bff84b7b419d5b8bad4, 0x1982c27612eb8483cf34901d0f43160dda8fb9023cb7c1720dedc8713746957d, 0x1aa2e2a9ede82e29554ac927852bdda9eeb8dc8ef97403a127ce95ba9b30ec7d, 0x9a3c803dbfa1e12292ca70161ed787f5f03e45e159a05b4a79092694ea0c3d2⟩,
    ⟨0x953b35d9532d86fa01317ebc717a962cbed3cfbf113022bd4170060f78287fa, 0x2a451d1518d1efd960d61a913b394b8a54c29a847dae43c152dd10c8e308632e, 0x2272db240063f71671abb4a5470813b8ba3a714254a834becc588a4b3948d76b, 0x250182d61d47bcebd2c21646da4911355363383f6dfe562a150af03ca1162cd5⟩,
    ⟨0x100e28e67583ffc45dd21e77916177f9bdd5ccb530f16c6a804e1591b37631b3, 0x2c46fc1cd3a17a855d41d78792b92c87e5777f4fa5934c75871829077b2f853a, 0x2bd1518891503d56c7fc059581ae0bf2bea0ae26d43891ab074fcfdac89e1be2, 0x166b39d512af9bb943cefae77b53996382de3e7fea39327665643cd435cd13df⟩,
    ⟨0x165cf2fd3ec9df0a81a035581f2d6bdd825db1fd4188c49828af7e3cb8734332, 0x16807d729d31307509bcad465f6acfa4b5ebb1ab7a5178febe52e89c65094fb9, 0x116bc1be6087ba9442f8a19ac9bfa8bde3405a5086201732707e3e50f51c8db4, 0x1b689d979e0679db5e6b685d73c3455b3eeb9d7b89d23889a8e456ee80669c5d⟩,
    ⟨0xbcca851d8fa54cb3e403608f42874b4d88573baeb5fe963dc0915b6d8c3214b, 0x1e2a6b58b66317431942842b190a5971b1fa4a369a519795f491af37951ed82f, 0x1363f4fd94f315c919accf3a12ede65963e10a075931b52c7faec734720e5561, 0x1820bd9d3bac31b1eb8d4255db457189c7a7f32cf11dd4b8df04771cde80affe⟩,
    ⟨0x801e240c9caeca8d9c424346601e8fd0e829c0643bd239575393869f2728b83, 0x2822bba28f0cb99d9e9a109b11913da91ff99dc577d6d7364dfb1d7e874ad85c, 0x1df979e79985f1738b0d6e8a2ef706bb3c374bb02afc49af20b33edb6e4ed229, 0x1db747dcf595437ab9a5806c0e3851271dab91f906d33e6b9fa4dd979b1ce484⟩,
    ⟨0x22d0c6e261cf1ba35c43947756f7cb589583eea6212737d96db350d51cb0a223, 0x2071a005623ebfe6dc781e771b082e2b14bd5eb47bc137b9081f9ea4d6f06f3e, 0x2fa14a57e500a6bfc1d0ef2128bb6c242e2474de2c0ee5efc924f390aa0ad72e, 0x26e0d136037d26bea56494b22109319b3c22833a1369216bbeb5e43c43d8a676⟩,
    ⟨0x208cec6758751619995d77d6cad46c47f7c1d27a6729d248b021e0e95ad51055, 0xbf692eee0c9649212e25b048eb11b0de43aa3fc56a2b9bf480550f0c16df8dc, 0xcfc095086774516f815034430b93129dc6eb0c8ee511db64322d7651662952a, 0x294f40459db124fc7d1e23f273f3aee265be7501654e55cf95a8de526f728ea4⟩,
    ⟨0x10f540065f1f65bf9dc5e2f231efd022683ef2e4c06838110a815b9bdd52c4e6, 0x1d211d130cdbfefeae19761ed2fe3a74f001b6ea9f693ebe24ccec905d30bf41, 0x24e83d1f70cf4736e756d2426ad0d5351bfb34d512cd70f922dcdb7b96aa0533, 0x6c6944d1c7363433bd0fc17988e4e3ad8c14a4740057354eee2b612a2dc4f53⟩,
    ⟨0x2b98f31d1d6453161c6f6ffe2aa86466d2d2d5637af2b4ec9329c13084060b44, 0x272db2d7d5f6b4ed8094d4b5051240ed0c0f59805678bb3ebbbd0df16aaaefb7, 0xf88a9bda21b64fa99d68ac3cc79e29427b39b8bcb8cd3d7d1042b9cbd8f0710, 0x1cd50915249927f7854d473ff0966e1e544e44eafa26ae9dfc2a9df739b0f2b0⟩,
    ⟨0xad36f12af6d0b6034f3e26fd7314069d2b49ad502b3e569537e4e8b3aef4e33, 0xe19b5fc9f808a3093b75bb63ef654b208204aaf613e53ffab831b87b4e7bafc, 0x2367654a3df11cca549398c40372c983705b1f2c3817849aaf9ef7ea4387e45b, 0x2526c2912c371a2510748c606f76ca14430235920a77312869c2d26b2f0ad4a1⟩,
    ⟨0x285863c331fea7c8c3c011b6fa00378f1cb4481bfee94c6132442cc2d7b646d4, 0x10663dae41c750a82f7931e258be1d10a8ed6d472d3c7600c209f57bf7ce87af, 0xbad03cf353631166cc205e99b332e92123be4c6f8f263eeec73324db5553ee0, 0x2ceed4497085db6b208b57cea95d5810e19abfff605af288d9f1149787b5c0dc⟩,
    ⟨0x1da25bcc9069c8fb0ba6752fccfbefe661f45bf839f27b39c25ac487a9b1599d, 0x13ae3d615d91a09b3884fae6d611e158c47a0aad33f7c9b4218734d6aec3ac59, 0x2e14a8584771147f5e84c59d4ab671621e25dad79e5c7a26b6792f4c670595e1, 0x2f9e37e0d2ec7e921850744a78b2653698ce77450b68819fa4dace34fa85f3ea⟩,
    ⟨0x1be1129a9ae4a8ec95c5c96a513f0f41e90fec0de3525e7ed9ab262f5597271e, 0x11404c2636c2648ccd13b7f838676dda5ef901e156c37adea1a94786c478f1e9, 0xf177c50598d7e6d96a63c2a1656d74e3cc80d55bc2c5a90401d2a8ec4e40fb4, 0x1e6e2417dd0e514368aa98e9b1e354039d2590b7646af223e3b57d0257f83d22⟩,
    ⟨0x12ecfd1cb1b434d91353ccf23e634164c3732d9ba7c7477ffffad54b5ab57b9f, 0xaaa292320934839f9fe96f1d89a8d36992331a144f219a2a0787537f47972b3, 0x9cd7bcc73ac372abd235d6eab1a45b8b5fe1dbecab006b61cf8dc88df294dfd, 0xfb6cb084039a2ccabdf3f741f5596bad43d2739d99e84d50d896aedd6277c3e⟩,
    ⟨0x2f098316ba9c6aad9ccdf57f43ea91995de51469a4f3b23ef43ed262e15e7707, 0xb64124dbd3536d32745b991eb62ff84361c3d270015f245597e414a4f9c41f, 0x314f4280f5dbfdf3d54d9304d62a2ee1e43292d5dfc6026a19160d0f55f3e6b, 0x2a6859225199b99e91f566c3dc37a16a0ab39770c4db0cac63f593bd85711ef⟩,
    ⟨0x18cbaf020b234bab2706497ed9b5e2a69d945b4ffaa8f33e23e3be87ec0f68c8, 0x2036c53b918886dd0ce06cb1fecd01365891cfec5e3ead245966199b9c5b0b8d, 0x2462b3c37a12f3e9f613105d55c5967a31670f26c3a8cf0c8fdb55656190f42e, 0x173100b509fd3eccc0dd304e0a368135fc3bb06da1710c64fc678a318a03b21f⟩,
    ⟨0x11b4bb5cdefd61afca1b9a63ec823d98732c3124dba416033daa6310096aff79, 0xdf47606956ada43469f9daa92e61d4a93bf2d6cf2b52919ad9dca7a6b7761fc, 0x3341046b74a9349320ac5566589c53d0c1182a422e66b40d0f779ddc375a74a, 0x1234856194768648d2759b847dee0061a4b534e797fceaf09de1869b0ab62c30⟩,
    ⟨0x24972ecae1c79d886811b4808c8e4488d4b8c94088f66683690d04e6a2285afa, 0x25de57d97811e0c62aae109cb6256befd324a0fe24165b632bc9d38babd3b1e5, 0x27b15fe125e1582464895a39bd6592e904dfbe78837f6629eb8d4e2dc4d87e1, 0x2fbe7d92be951c5c9d1327125853b9b7184581b05e00ec390b8b591bea88603d⟩]
  permRoundKeys := [⟨0x204ef5195a249af9f0ecafa3e5d186d6318a5af08a0ceb9731351045082151d3, 0xd525fbb687d48648b6a0ffbf1c9e97be39cff22d46aa165c3278a5dd953d6f, 0x10b1159c4fdead8c4e6ba55d1bc8338364a6c05eef88185f72da1f178b613ea4, 0x823fa86ed409e6816795278dac56b0e475e16c412fb04ee260bb3b55db81736⟩,
    ⟨0x293fc7d601bacd3c0284df170b21dddab70c60c3de919e3799cba305354a593a, 0x1151c53f7f7ff7413e04d66c516cc3faaa38b3b59efe62cdd16bb9a48380b13f, 0x2f198a2c4615ac524e724bc229fc8f4ffb57ac86812ccc8f4608f9d08de22d1c, 0x177034f8dd1f6da5c3fcd25f4cce79e082153dba89a1587c2190c9ef287616b2⟩,
    ⟨0x7814ed3eb736d73804ada7bc25507db0d7e374369c010c691dd65386c4efa8d, 0x28c30510d747a6a641cd7c81c2b8273c3deefa3366af02e482bfeb806232d5f6, 0x14854753e3c7e4e50b1e0e518e99f0e54afe1c82088c1935bcacc286fb64f5b5, 0x1047bd5f58c7bc8e500fcd4038744a6f8fcf114448526c6ae4abbcf0f390957e⟩,
    ⟨0xadcf20cdefe156d31f685c92c4c754fb216b09eab182e5750f53a1df6add2d, 0x2dfdabf83e149f597560ff354951c0a0da6ab955b50e6cdf8d45210b6ba3b539, 0x2bacb2154e2fd046d124f23427e218f60cfdd290877fd80e89e81223d92d2fea, 0x80030fe806bd9e4c2fc56dd2064b48020f3743a02d5d5ef735c19d7f5351ec3⟩,
    ⟨0x5c1e7e3b39cea62ed567bbdd4af6aa3172b0ace17480b7631dec55d26f2ae21, 0x2f36e6aa6047766aa0ab108a0d9c608c7abcb7e1c36edadd813267aa61eef503, 0x117010f3e7be4bad697cb596ded269bdce41cb5e4f5df321fc36b8297c8def8, 0x12c88ae9e997682f6e64358d6bc2b98f14b22570ffad3896c6ee610c0d9bf872⟩,
    ⟨0x2281e9c8494480ec1144c41f401bc42c6993cb1c244c3ec2d55079c8d1d3f5f3, 0x242399fd277ec35ab303f398fb09b832828c0b7dadfc004ceb0fba84331a4383, 0x2e9e0e672cc6a26e6bfd72800937d17f84aafc14fe34f2e117210fe16216a014, 0x2da20060d27da3c2b99f4baf512e53ce5d3223fd13cb3286d141b29eed7e113f⟩,
    ⟨0xd4cb3eee3996ba8f6793bb402e88d4405aa1081b0a37b78c7779c3d340f1960, 0x1ba1db73659b3b23bd6a6af953113676161828012c3ac346002de9e0dcf0c43d, 0x17d86473dd04a5f188819b5c7f2fd37fec9547a3501c5bc5fd24a02ee30bc0b0, 0xc4ca620d3fd1b4131f3a8b69ac3d5372523f2bf156a0de7ee6265f1ddac6979⟩,
    ⟨0xa2392ae4051fe491d971e19a1b2065625c2a352be8e1122f28f647445a632f0, 0x11fcad5e34183c64e5b30f231a984c9a2d4d2f1ad82952c694c3c705049f7816, 0xa0176d71d3b0c7ac238ca77529fa7b933a086fa3bfdcb414ffa5e2da9df4b00, 0x59c2c2688d5d8ada8ff683cffd98a228b6a1b195b53640501b1c21237f3854f⟩,
    ⟨0xf61f39a3558851cb791332e7dbebec12b7a43aea2f998b6db4600a80374b6ed, 0x25e1a9d62bab29bb8fb5909517f1d47859f5673f8a2b2cc9dd7c870eda7b0fc5, 0x2e3c03dee44661150db8756977960cf0424c8722adbdd647fd468136fd5bb40f, 0x235fd01177ea0b664dda5a1c09278f4160369efc76234c42fab4e27796b8ebcd⟩,
    ⟨0x169bd072a166986e826d5173764c5830cf0df28a54fac9efb8b14d14e4ab44cc, 0x29165dfde70c541233d7779bffe5e4a5d51ce188051c8b4219176836c89c8032, 0x147b071502d5ab6d5c36c904aad61596425648bd04b59041c9467d1c997d40ca, 0x2ea3e4df1eb00b56b191c888aae9df7a27b1aaf7f42c07d7fdf4c429f3222c90⟩,
    ⟨0x5e7d24cc9bead53442604076a931ff1141eeac9df9612665aaf279fefc56def, 0x2ad3fdab692f986698dcbf75bad7997c69656bfaa12c3d018dbd9756f93b2e7f, 0xc11aaa440c3e58f338902cec6f8d69bdd72af59c2af99023a5997c5a68e97df, 0x10383793760804678052e5585308fdebe58eb196ca0b8cda4d232c4f5dd206e2⟩,
    ⟨0x16e2b4a08b6639f2a3ab1db440ac11c96ac7d6a6b622145f9966759785f58918, 0x1768b6d0bbabd43b4d8933e7983893b17544bfb5bc859064bd7cfd84a395e838, 0x1faea6415e680069d5206a3c67464d7f69eb518f1b1dfd2cb33012d65c91e313, 0x2de153e0b9e0dd03eff09c7968c5731799e5160093602b927b352d54059471ec⟩,
    ⟨0x2ade9a93522e2e0d9bf61dd2b88f64cc1df63a68121c07506bdeea0e6098c536, 0x938220a701623e1fd7a5f533a663d90ac5a51825c8bed809125d24ebdd8fd10, 0x6aa537ace0534e58d88ce2046010a57eeb22544b8a4697483d60c4638d8cb72, 0x1f9541c705b95ef90255b1a5fb64051ab1909f23a3dce6b659e9969523d34fc5⟩,
    ⟨0x23debb8c003021369a7969a8282a71c305565849020582efcd3e892446e50ff9, 0xbf2ca96451cbb14a262b0e915fff1aec62d2accd7c3c6c5944c281af35d6377, 0x2c7f9809cace0068afc0de88a31764989d1911b8565be322cce2613812b4358e, 0x210771d9375a0643b6570ac88f3652e77f0e7203b9a7e574821b5f63dfd10eec⟩,
    ⟨0x67fe55293c933f98e59faf05eaf3eaa1af21626cfc1f96a21b85234752f476, 0x21f8f1341f5053b5439cdce11d696fbec69d44a348535ea782cc5c2171b9ac8b, 0x16419ac8f54dc6d18476d752bbffcafcf180418089ddf8212092d96ef069aea5, 0xaaa4ea3d4a62822c9d5cf275c43975bf683708c78b9c093bb43c5f6f17949e6⟩,
    ⟨0xc37d733050f604f2b0e395a3ebb3784f55ee9710e9a0c5e06b4667fbc8bc42a, 0x2824f5b6c26e8477a10dd00bd2f0cde0b1b6a4a491cfc97563001805317ea6c3, 0x1b25bf1e4df63b5bf06b83d2c3e2ba06ed0597bee28c9db9122cc31650fa397, 0x240b67813effbb5f06110957159335241f5dcfea620e4fce7b2b9a3760408d39⟩,
    ⟨0x2236cd86c8d65cb72aa00bcf7296c58a28b849a690e31165d2302f8466caff04, 0x20390ed18182dcb8daea043b93aa2b98ca95ab429ff2ca7027db4a27350fbf36, 0x1e643cdb387382849957ecf0d99f3115a5c208e59446b7de803478245ed6eae2, 0x1e854ba31f89059506f766b129793d5a134296516d3f88b841155468f4c294c7⟩,
    ⟨0x7ca4952be421a53c307f49858f7f2e1c6cba4b3f6f87acb7f6f291dd59091c2, 0x131591c541dd94f41e2b7754a4109b4d2eaa0c934e9030c8bb1285e7f26e8f06, 0x2cdd8e8a6c5a6cfcab40087c5546dca55d52e0fa92fd5f8968682bd8a4ed0584, 0x10c3f10b28beb6599e5b8ee9b2226ea9a25c796bd0630c9540bc864727ea6c5c⟩,
    ⟨0x10b8439f8b5fd9c23e18ec554dc0909d73d488407e6ce9461b2366e600e9cb89, 0x1c0e2dd3e1e31ba125d58c9393862f6c234bdb81fa1f7069176c8666a14af97b, 0x305ebc67b8583cc608ddb46561c6573315855a1f8dbd93f9b8c54c61a0972ebd, 0x79496612e6a96e6e973da23508e0ff256bb0b67ee984b3a2c637d85ce84cde7⟩,
    ⟨0x5a4cd4d2576ac3bac78003e9b0d75d77781162f562525954a8f1f9cab7ed4b3, 0x1e4dbb96d44d70abc545b8b41d65772d4989fd6d0b1d9cc7b68830127e00167e, 0x2bbea759cbe13e9047b344becb11fee7d54f9445a4bfb6cf460ee55c85117bae, 0x1a03ee9282492493002d081bd9fdfbfab2fce79e734c285aaf3b600d72894c12⟩,
    ⟨0x2d0ac662607bf9e018a13d43da00f1c17a80223e53011ca97fe54fe7023bd28, 0x2cb74b97aa5a0461e4a0a6e288d99c0905aee732c9cecabe4615ebd5a104b333, 0x1cfacccb910a37fbfd67b2996ec2424a9cb2e2a1d7870a61a806c7b6ee7386f5, 0x1760b5a3dec431d5011334c195de57558119f457fb5dbfd6fb88a3a52c557388⟩,
    ⟨0x2f483362e91e5828ff12621aca5ae5874ae430a3ebd86da588f90d30a96a5f0f, 0x22ce5efa27f62c09d2bcd85ebd23d78840a5d6b68d2633417053edc66cc1af4d, 0x23edd1de61c495e392254d4992eec9b59a5d4598684e6db46d0e0e4f7e0f28b6, 0xbfbb36d010f34c54891c925a46b5a9b1d0acc7bfe443050bfd0dcbaa3c816c7⟩,
    ⟨0x202e297f6ede5f8859f39a8cd0c7f0e97f5443821f0261de729ebd5828d167d7, 0x21aeabf98b919a79acb5a61da8b0ce8eafddaa6264da67a7f93d0f5278b545da, 0x2b3e91f8c87544d3bffae1237b88f932946be37354eb3fe75ff3f94d07c15d52, 0x304f9ec93c84cb215401077e145ffc7ed63be01dae7c8244ba1824025eab8016⟩,
    ⟨0x2a2ce6212084c0fd8257c35b7dcf4866c93b17928d4febead535e36bd3e24c85, 0x2a4c632e0c6bfd734e93b4ef7aff2765e15abebd4a7a1981aec2b485d700cb49, 0xe9af43ab6258d55f5b9ba7a5c1b17068735e8b1d0f5bc2a6c5c99711b2b1958, 0x1db849552bec3e70b8447baee23d2897e81f8a3afccf5f91f66bf9781be322b2⟩,
    ⟨0x1a7a09d8d34387e13b9b5d786cc715e568b6ca39baae0e2d246f33c5ed47b194, 0x175f2f49ecddc770f15e33c5f1eabf0f798fccdb47d0cff6bf25490619812c04, 0xbf35ceb455df243c98978a7d1c37e180bdcda8c6ad39435574cce62aee910b7, 0x29442c39d376d983c64b08829f211c64a89cca2cb7eb49509c3201093e137d80⟩]

/-- the modulus of the BN254 base field -/
def p_fq254 : ℕ := 21888242871839275222246405745257275088696311157297823662689037894645226208583

/-- `rescue_constants/bn254_base.rs:1-1294` -/
def fq254 : Consts where
  A := 5
  aInv := [0x180d04d5f031fee9, 0xd633c43a29c71dd2, 0x49b9b57c33cd568b, 0x135b52945a13d9aa]
  mds := ⟨⟨0x30644e72e131a029b85045b68181585d97816a916871ca8d3c208c16d87cfa6e, 0x30644e72e131a029b85045b68181585d97816a916871ca8d3c208c16d87c8b5f, 0x30644e72e131a029b85045b68181585d97816a916871ca8d3c208c16d86f879d, 0x30644e72e131a029b85045b68181585d97816a916871ca8d3c208c16d7041eaf⟩,
    ⟨0x438, 0xa5e7, 0x137ec8, 0x220dd96⟩,
    ⟨0x30644e72e131a029b85045b68181585d97816a916871ca8d3c208c16d87cfbc1, 0x30644e72e131a029b85045b68181585d97816a916871ca8d3c208c16d87cc48f, 0x30644e72e131a029b85045b68181585d97816a916871ca8d3c208c16d8766fd2, 0x30644e72e131a029b85045b68181585d97816a916871ca8d3c208c16d7c6ddff⟩,
    ⟨0x28, 0x4ba, 0x8458, 0xe204b⟩⟩
  initVec := ⟨0x204ef5195a249af9f0ecafa3e5d184fd2820a4f9fa8e7cb8273563e8f4ece853, 0xd525fbb687d48648b6a0ffbf1c9c6a5c135eb6b6140a4532c4bd159ba8e4e3, 0x10b1159c4fdead8c4e6ba55d1bc831b3ebe63cace3e16527be3b61fb72ea9928, 0x823fa86ed409e6816795278dac568c2e55387e04418243313bf66dc721b7acc⟩
  keyInjection := [⟨0x23d0adffa9658c41ea143e48c4280f6970f4f05f8871231023b6c2b953c81673, 0x1782fe6cc3298a680697d7cb8d99a02ac0f2b3c327b3489cb31f7083c3f658bf, 0x7ee69be4cb8853a0d9a9c3ecb32be3122b7708e34d178d52b80d04bbb0f3f94, 0x263e5cef8e5d7b28d10d83da9a5e03a80b487a8789d7a0bdf23cc294ad5f2f45⟩,
    ⟨0x2ed1a5c4b003c8bbb974c07af7a85d220f0661c8f3f671d3785b50318ec8efa, 0x2a2b824ae88e9486a09adc4b3d32aeb882327aede75f2343f41104fc4cb75f5e, 0x251f427d5eeecff4506151824cf5fd94cc80242bcb49abe7281505cd8e2bbd32, 0x39ab50309ed3132fd75cafb36d65a13e42bbff0cadefa9aa8c9e692973333e3⟩,
    ⟨0x124093c8af5fe6e6bcb9c0806c9973291a09605e66a59628e6138b6b99b9c327, 0x28c515d8c0fda299fd62cdd04a71f47c0dada70c03db871dadc662b58b6556f8, 0x1a14cc507a11a188f92bf6301cc074b3d5e65898186013f2cfac0f3efe2bf3b4, 0x1614857438a4c156180e9075cdc39ee4174e352adbf039c738d3367233c385e5⟩,
    ⟨0x1f0f1d38b0a95976cf2dfd0ce55dd829dc7092dbff2bf1f331a4fca6056301e1, 0xda7e7acbf7b95ef61114a0ed46aab6abfef374c7ab90cce0d7cf3a450df42c7, 0x5f47467a6b6d04ba07462dcdb3a6b373f6aa6c4967c8273436c0d2a88780183, 0x27184877dd2928a48cca5e8f4972e93c94ca082d14b4ff6603cad805641183a0⟩,
    ⟨0x1e86d8568f8635eb4ed63d1d619a6864aa38e91cb1adfb9fc007df6699dd246d, 0x17def37a20b8f184791bc26f11ff9ff3cde863f3ca983a1473a74881506e9228, 0x38f316bf2f9d3c513f5b3739616e80c76133989dd3cc83fb39186d6622532e9, 0x24ae6a9e4c553415aed9eb70fe4929abb2aeea555d054168823d5fd0fd85e4e5⟩,
    ⟨0x72439b44becf5cd8f9e06b5f471d59cb444f2748cf6bf05bb7f55dd818ed359, 0x1a08abddec84b9026f88562b6228c0878d20ce6f7d7efb990577b12a4a387717, 0x1b6fd40b7288ba3c432a64fa56ba831a719b0acdfa9ab48d534df62a606d2e1f, 0x565083e8fd929c4ad4f9fa3f162f9eea03d600f709ffbfc8f8553c5c46c805f⟩,
    ⟨0x1d5c6f5acc7cda142cf0d7984153e15111d0b4396fae86524066ef019d297046, 0x4b69e2d73509f4abb55b50a08826821abe6e51372632d7d691b01f9aa00cca9, 0x15d86196a50e5ede79ec7d1a7f0659a25286cc9dfd934ccc4933496bac2699c7, 0x1e2c42fd11dc0256db96113592041a39887f9d64a3710176ff6563a33b214a11⟩,
    ⟨0x17c9a60d879ccc1317ca153f810f62709bc26498304feef7729f22228ff588e1, 0x24ec8db63fdcdb5eb531bed92810213588a86dfdfea6818780e2b70ec4b15cd2, 0x24cd1fb19beb55b3660806627f9024a7339552099efed22491aa2182031b6f6c, 0x1bba2d3cebe3e544be35a0125b77025bc1a4f092f5d1a5807fc939274ef6d88e⟩,
    ⟨0x193e5641685dcaa6f63a462bd6d21f62ea8c2ad80ffbc8914502154e1d4c319a, 0x23cbc20f7833e527ad39bed8de660027edeb01ec5d60a3893838ffacf2f929d9, 0x3342e9c0b35a58d4ba509d077e0c253eaf9034d1ae02f0e79f008dacc5d297a, 0x215f5c4d974027a6d0dfc1d404bd453951659f7cab767468803ede8b2df26b32⟩,
    ⟨0x27c874080b5bdbf2c9de0b983c2dbb57c4ce9317561c64bb87d72507951d1ff7, 0x2e9f392cb75d1a1a4260434ee3ae175867a46bc817aca02bcd4c553a7adb4951, 0x16e0621ec6088da86a7642b69fde01b7c0abd97f74d0b19351567fa93570d18, 0x18d6450998bd0046df155df2c358b192ef26f312816f3a40d99ecd322aeb4a96⟩,
    ⟨0x1d27d827938fd97dcda0761590979cd60cea171a4d2ac2da93f2f36471125814, 0x27443d1519521589efbaa67d9a6a0dcba3ed3b6d72d25cfe196914b8006fbf81, 0x1b871af0e8e848e07123300fd8d1a31a1cc7692a0d6b514a7275b6197c87e899, 0x228d287dcc2ad2cfa0b4297ff1eca9de032861233899f32650d23bca38e3ad97⟩,
    ⟨0x2a94036c0a71d042cf4287a771e40e181dc04b7f275473a25f8c39ba1e46912b, 0x2d4ec8dae9426eedf57632821d7add5d4196ee0fe056838061181531b0e7cf21, 0x173431d4e73fa327956ae6f340df24db0ebba9fa3bf1cc99bbc9c651d88a657e, 0xf9771286302460055eebff8b058a52b8824fd0ed89736a973588257088f6c22⟩,
    ⟨0x1d34ced0fe56bcd46328354b29ad21bac5cc9d2f50027ba3f694e28eb16ba834, 0xf8473dd6c5da72e2b471a89eda4071b720cb92f3aced3e0c0b6dac43031f801, 0x4fe42db347c772fa1d92bb05c23d39a12e7a2cab8a7488d9a5cc751033514ea, 0x2768765965c3b4d10bd21f64303e39336c8d432a43462342b80599757e43e366⟩,
    ⟨0x311ed0492f71c127006b4796057eb3a5193e1c5b7d59bbb8d3c19e51327a62b, 0x128efb50f8090d42bc4c9e819974150c98e38ef432f1afc53b723c89176c3823, 0x3e768de02d7ff90700e166af9fbb085b60db334b8d8f42dd8932de41f215a1, 0x2f0a137094c4c4835e2f5ae07d5863ea27e725c238a6292e9fcde3e60b93eed⟩,
    ⟨0x693a73d64d5571038cbe753a2cce0bf828de9a69d7c9c239d204a80f8d76d0e, 0x148676e11e6a710b8a752ea7358cdfb924cb33eb9e80931f159b460ee95841ed, 0x1e19b534d925e930d207648e862038cd7fde195cb3c08d1ce694e334593c8b40, 0x9718040ea08594576a31837c7e217cfe2a457f654f91e2c746fb1d1e3f5757e⟩,
    ⟨0xcb9bab5b03aa0dd7756d46301de38bcedcd035629c124ea3ce50634493517f0, 0x8ee1cf24520f90563a963894c40968361f1f0e295ebc1b991724644835b760f, 0x29e5ec569209439249d18a57de4b1023304f0b8a630cc48a773d2f6ce7869e26, 0x1ae92e0f41d2ba5e38d3decc71bab216da5c5ac482d0940aa0408d151fd57e78⟩,
    ⟨0x24298494474ab582fe4c6289a26f14465fb822f98e445c128c193e22d74fde40, 0x2eaaf2f1d351dfdc8cb279035901e616c81a616c3325ccd09d95372456ec9cbd, 0xb44d84cd4828924d0c81e8d55720a81496f93052eb4304e11bb9eff3d64c5b7, 0x36280b014d1d3e9588dabde0ca912d7ea870d6adb429cbdc0e0ee3b6402b7be⟩,
    ⟨0x1380e1ffb9a0e05ac87fccad14a4040cca52224cc11086c18884bc02141ee269, 0x1c6ccab701ed2814a0ae38bae943fdc1496943af7f136ad35a2c4ace717baea0, 0x1b69ae861dade7c21f13631a392062b8e2a34ae352e688fc47115ed38c44654d, 0x2c9c9d449237357dc0a308ca5493eafd4e554c97103f6a8e5304f17378b4506⟩,
    ⟨0x2df89279d86f5ba335a03cad3aa96cf264d6ad06be024effa95f5f0d12a6c49c, 0x27d36116e877d0414d9b23b5bb0633b1c0ab07e23f1592e18b9068faedaebe50, 0x1ebff6ea02daea1673036a4f2cfbe029cd2fcb2ce48d703ee928ff8ad0638a0c, 0x1bc58f625c114565a4e91c55f54d6a261534aa9fe07712daf378f691c89cfc4a⟩,
    ⟨0x246c081258c9e4db89a0e0be2a6c1cf996ea96f6db6ed8ec46211540b8062f25, 0x13f8f5b95079641d2f348e656d5846acdbf4d0aad95631afb1b4a3fe7b0e81a4, 0x2b207327df60b3dfa18b1a859392f092af09c806e3f2c15cea07693219604f80, 0x2076dd70e062cc9a267fb79f2d23b180e549dbb12d6d6bf6a407b422e659fb40⟩,
    ⟨0x2ef03728f43f35fa371c38a7ca23460b3fd49d58c86ddae327480430428d64, 0x2be9334e984e5b6bbf2d044ebaaef7ab5697bbb897d3071333e52add54c66c80, 0xac9b3b86ae989bce9a655a29de0c26e9b881dcd955c541ce50b094ad675ae5b, 0x16c503dc346381c74ed93dbd72fc78d6bf9afa20c5d8082ecf87055d83556f3c⟩,
    ⟨0x2ef730629537f9dc92e51b46a1dfb85537eaca91b9f4c8d967d695b57ee4ff57, 0x2490e9c6cbc46beea0fd2d542888e4a1cfef8f35919c95c925ea89eecfacf99b, 0x2e1598148320fc403c8e14b7c57591e17531c0dace7fb833375c3b65d4a53ff5, 0x2a7a981cf758bdaa4c671959192c995073b60b3ad90dff38e4bb0ebe0fc35434⟩,
    ⟨0x2b76857819b316efbdb253ed7b50081d80a7853856030984c87eb5e21558261b, 0x549e99e4e9875bff3e5e69006fe9960b40f72ece1d692a8cab999e06930303d, 0x2bfc7209230241de7dcec0380e363458cdd5d67a1f80793985a80f856c21342, 0x304b4cfabe08cd83215c3b5b1072d2849316b40b31a0d80a8988e9cc89557833⟩,
    ⟨0x1758d45d8e0ebc46b2d56a0f3b2c6fb2989d7f6d6ce2226ebb20dc065208f1cb, 0x2f27d748cf5997ae6332d25a852ef6e5d26732695b4db16b7543a4ed3e14d1f7, 0x1ebb39d90774aa3e68ab975c97b0b15bb406425f52524d617069c5b4c9b67ede, 0x2d461c030bae3cdda89d2411d5b9e2324c0da15f7a736e21a5b291cb2a550eb0⟩]
  permRoundKeys := [⟨0x204ef5195a249af9f0ecafa3e5d184fd2820a4f9fa8e7cb8273563e8f4ece853, 0xd525fbb687d48648b6a0ffbf1c9c6a5c135eb6b6140a4532c4bd159ba8e4e3, 0x10b1159c4fdead8c4e6ba55d1bc831b3ebe63cace3e16527be3b61fb72ea9928, 0x823fa86ed409e6816795278dac568c2e55387e04418243313bf66dc721b7acc⟩,
    ⟨0x2f95a2d81f8b6286ba2f71e7e5cfea78337b390cb0575d7ab5381e025a09f35d, 0x1ff0087c280b120759b94c5cac308dd5990e2a861e0a760aa53507d530a9c382, 0x14328570f78244f66ca0a9b4104b27b3636d0384342b8923a066b8feaf72dbd4, 0x821d803bbb4908c917e940784edbe2e2a80c9f9f6ef758ede072bdac79daba8⟩,
    ⟨0x19153f98e6176f59a6c1571a7b588877518874656f3d11fa84fff9ed906fe5a4, 0x130a8ddd56950b4988b49c0e0aad32380d2be7247fd6c1f6ef3028ad753eb2f2, 0x1027a3c74a353a65347db9857fbd281a84ec1eb099004a595068d2c24ffef12f, 0x1387b48a9a1722628cdbbf8bbf9e06442b76c7eb6e9a0716090293cadd4a0372⟩,
    ⟨0x8569d76b346740707e1ee2d8d4f7b2a3c9531e7f04d9fcdecd5902d9ad25151, 0x6526f3f5a7b01f745ddc00ea3b83b7ebdffa6226fd0e6e27a6956728cfafe1d, 0x2feb0470a84a0abe69852ede5f9243f216c9385c8b380013ddc88a9c30051048, 0x2e1b06ef30ac9978b79e271c77b4e18c85b16d3ae323fd630935a959139a117c⟩,
    ⟨0xb53a3010ad9396a987efe5275a4d325d9fb7e6c9e4eb7ef131f4f5374f3efd4, 0x1d9342f8560e4c88b674318c306668d6af8bd346136bfaa5e70110622b89eccc, 0xf7ebdd95fe4011c6f211e1fefd2479deb34f82f130c4440f84ab4d90dc91335, 0x177311b49ff7dc7751b8a3937aa90af9007fe6916676e48c55aed83035bd7f1f⟩,
    ⟨0x1019ae770fbd552c22263b220daf7f4a5643de8bf2e89058cd755990635f87b9, 0x118eee07b6fd7fafb766a5bf924ed9017de7cf2065cc8dc0454400bce973bc1, 0xca03c544e34e750af5f3b757f23bdbdad8f43571656e4f5045826a781e688b5, 0xcc60599ec0c07f1b4e33ef2f6e797b0de61ef6a887d74117567058679639ab4⟩,
    ⟨0x24b872556fdec658d1ce93297463485bb47c829bfb9c05bb1d6c9979db48182e, 0x1c70863795b21ed68ed0bf6b4a7a7b1bdf40896349b67abb438c42e55e30bc42, 0x2e07fee5c643590bbfb3fa86d92369e42b4175eb1efba0964df62addb430f9d2, 0x23601fafd005870917a3a067cfec76fb9cc8e55f06970fce04b114058f497c82⟩,
    ⟨0x25a6c5d81b5e361fdc8f56bc5ab0e0efaec7cd2186fdaa4c43df770fb2a9a42e, 0xc5d5826676d51ef89e9cccf9c26d5b62c5bd0f2847ef604eb4b20c0b9e54ce5, 0x1c772a61b7da84018af4bb39248f564bd43b47ffbf7e1a0fe79ae8f0a7066a27, 0x2e9c0727defab94b60fad56f2ab1161640eb48e35c8c96a1f9b9f00522239f3a⟩,
    ⟨0x2d5dab1627ed42a9826f8b303e1409cea9246d97a54d2e37a9ee7008a4545829, 0x2c082994f05a91e8fc26e46103348130f411aa6cfd7f9476e3d70162526c3fe9, 0x1d9552a99c8822d3567ff264f381c4f434a2a5d249ea53fc98f36d475aa8835b, 0x2d1ad8516d3163d5fe3582c8d58b99122a0cdec54daaff066dd481d764d0a62b⟩,
    ⟨0x25272377da5e84076637c5c8ee3fcaadbd344af57e491cc9a90594885ab12265, 0x2504b2b58c22beca9921601134325b1cfaa28de0740dd4d2d8205deb45caef74, 0x73950e5440c51b29f306e29536c43979719c7dd2038b0d95f03d4089c8f231a, 0x28e7e9cb97bde4f9988d7ebe77e1fc3d0f30103aadeb43e7abf0843e54bfe5be⟩,
    ⟨0x1967366e763a1f77d1d8112bc913d1fc248d0e159ed14a3a0ddee49a91dd5e10, 0x2a3065bab2c00c88a5beac4457b853e7e384893e35c3bc173e012bff75f202fd, 0x2fcc3a8d6fb1548ab791f03d69d235df52ef7cd35d4edad29e12745e18797653, 0x2fac648ad1452b4595155510161e7d21833675de93fb4b5729a7e4ad7686d4d6⟩,
    ⟨0xbcc73814554654b216bc0e191c84f2f7d9b51fd2679be7518b5b61874991661, 0x10f489c59b3bd0ee539350b586676c4ddd51d99574ce69591121e10319a85618, 0x6b22b5638df3374778ce2c512f3ee9c243d2c4641e178261221d6da1e68eeb0, 0x1eeeea92563dccc9f5a4df1cb575b97ed0517c9c191e497694af7814233b397e⟩,
    ⟨0x1d4250e41a6f6ed3b2d4e1f17dd389597c0a171e7aa324693644aa8ba13fdf2c, 0x1c014efb1820a1d3149da34c337d8f18e4bce927ee216dbc5bb2c743b9c580f8, 0x1a938b9b115ccf12fd819296ce3e809a2c0b66eb56bedd549b5763a765dfb90, 0x229e5d18e85e74d7f83116b6a6a56078b28d1211eaa233ac4fc9521ce1764885⟩,
    ⟨0x27adcc0050b0321a5f180dd30e8afb33fe4c3f50d9b312b79845cbe2b6d84b2, 0x19fef8e65c488d32f5faa466620ee7fc485d5b6325a107092a6cf509ec42e704, 0x429724a5b288ec59feb849aefeeadc1e6f15adbffd2035fb3feef1b1be35459, 0xa84ffb98987d47c6591e15c1af3e9d4be381601a8f29e07825a937f945c9dae⟩,
    ⟨0xa6a23547d5e841a95081d535bff3dc92f266f2030f5a554a2ff56219c73f947, 0x1c061045470afb301b4eba90d23d7060d0d8771048d9b4830c3661185f982741, 0x206660998e1cc36730b9ea202e90251f84f82db35bed58fb6970225c3c0e17de, 0x509bbd04f2a886423eda79b47d1882f47af9aba480c5161109e9108f757f040⟩,
    ⟨0x2833171d4a4402ca29164986a051ce621455eb084d716a93372b1cbd6b270ddd, 0x1f325b1eb04be35c96e795ba99d81d218fe0d8db65a8dbe333bd92c5fd84dddd, 0x23ceabffa4b187d0347095738c4784ede93c4724abc8922b2f55ac5b10927e89, 0x2bc8cf310533c8811ab0af9c96724e3e28e618fb160ce9a2f9cded8479465170⟩,
    ⟨0x28e9d014a33849f1da39b9aacad50f921dd35f4a37084972a6973bd54759b98c, 0x1e3ad085a7f1793f63b56222e1228844884b49d563bb1037c57f5b23973a0be8, 0x2a7e1f9aec68419ba9e95a22d8f8307115d6fe5ed7cc4171b12f9101de7c844f, 0x1b645e0fc4a27d265abf03c9f8978e531e4d7df138c20ccb33e2758ca9412dd6⟩,
    ⟨0xb112e707fe5e23c55efcf9b4e8735c260bf2cd59c74b4a2c1a6b0b59cf4fba8, 0x10e2b591483bb1db7bd905a394482da6be3709c679e6330b586fc728b85fba10, 0x24f46b90c5e8d4500b93f9e0a40b856ad9cb75dcb5f70f156fa390099a6b64cc, 0x131f76c8be8215c8d50346a5edbb5f702df0c63124a57bbde8f13df39f99659c⟩,
    ⟨0xe771daca727638436324188a481e149de9246c6378a00eab1fd05a3ada5622b, 0x1dd71515ea86b6023c260cd033381a630720d6f05a4cb4504a72c3508008f7d1, 0xf2bfc8a9b5c21a3e613fbb3bb73f94c00170d63c6389873e6ff08133ffcd8f8, 0x84f92e1f3d15abf5fd9467f72a933956d8ba55ed7d5d1107c5c61e1f6771cd0⟩,
    ⟨0x8766f3158974ff7ccf31f409f644c2d3f87594cd19619b84083f0aa188285b5, 0x3008b465258d2b775d4d5cffe4524cb364f113b38582c457a61947ad8c3741d9, 0x1433374f9473b367aa1e88d80761a38eb886917b9de8711d78ed74f3d8bfd1f2, 0x26dede3e0d356a5ff70153302da90c69c0752e4dfcf41fb5c0630264917bca75⟩,
    ⟨0x2e92ed8ad06a6ab8eb853c2979b1ab445c40274f4d6b28497fca0daa0d9c459, 0xf1a876e6bfc74536e37dcf2a3abc2c82c98ac7e6e723793b68b18bbd81e541e, 0x12f704754a32b493b675c6df4494027fa0dda19f61754cbd98b44799416a2fab, 0xad5b4cfa43bfa67b23c5daa3a05d596c084505e6e3b8a73d9540aba51e937e⟩,
    ⟨0x2987036dd4ef123d7377d28c6662fc7c807305581a9d008b698e42b374f679dc, 0x9eddcf1cdb49f7e597988bad13d14229cc2b6bba1c96919e6b8e401126b8a01, 0x1c488ececabaab829a2f3a43a7f417ab4e48f4fabefb4e8e259ceb43898d0056, 0x2ac979766f26456663f7ad81f628946e52c410b6a24706dc4761393bbc63e0ad⟩,
    ⟨0x1e55c4a3c1b74e6ec65d9cc6ac83bd9b3835c6cac0f3f0cb099338fcbf51ac7e, 0xc86d16916971bc72a5a3eb3a5dd63b547fc5d3c19d0f410764a6be158769b93, 0x4c510566b235201023e0c3681c0cbe4dc7fa86a3417efbdec2a39bfc3a783da, 0x1e26a392a9454583a3db386ac4f30b485f3927167d26a15fbd15abd36a3ee78a⟩,
    ⟨0xb2db2f439721f6bbaab42090807a9467a0a2f54a35c9052629f4d8c1b952265, 0x301683d29043a05d129ee04c42dc04436f5ca949d02c59ce322c3ac1696596d0, 0x237deaa8cab1eb745e54c1bec17f2dd6b7f6b8ec18291b66751013aa0281ce77, 0xade22763aa75147831cb5cb0316e0d406f16ed961800ae3c101bbca106a7487⟩,
    ⟨0x13af058c93d85f44f0d18f9442a532ba502150384648013e53354593416e3e84, 0x1c217b2d27d5371000016fef9375a22e9e37d4498e1514eb433d13578e541494, 0x4a615d0aa5eef96ccb35e4b01b5d7eafb19a690e379ca81f3182baa8690328, 0x798b73d543e024b1207b116128b3eaa7d13c384beeb6ff721c8b091af7ce2cc⟩]

/-- the modulus of the BLS12-377 base field -/
def p_fq377 : ℕ := 258664426012969094010652733694893533536393512754914660539884262666720468348340822774968888139573360124440321458177

/-- `rescue_constants/bls12_377_base.rs:1-1522` -/
def fq377 : Consts where
  A := 5
  aInv := [0xd0d3cccccccccccd, 0x126f7dd026666666, 0x18c2b4f2fb3aa000, 0x7b4f14c2672a760c, 0x4fc0499f0810762, 0x1582e9e796a73ef]
  mds := ⟨⟨0x1ae3a4617c510eac63b05c06ca1493b1a22d9f300f5138f1ef3622fba094800170b5d44300000008508bfffff523160, 0x1ae3a4617c510eac63b05c06ca1493b1a22d9f300f5138f1ef3622fba094800170b5d44300000008508bff668f95de1, 0x1ae3a4617c510eac63b05c06ca1493b1a22d9f300f5138f1ef3622fba094800170b5d4430000000850841017cb8b21f, 0x1ae3a4617c510eac63b05c06ca1493b1a22d9f300f5138f1ef3622fba094800170b5d44300000007e7e039cc3aceba1⟩,
    ⟨0xba37e0, 0xa45a76d5f, 0x88066a0f39a0, 0x701d40fccfaa61e⟩,
    ⟨0x1ae3a4617c510eac63b05c06ca1493b1a22d9f300f5138f1ef3622fba094800170b5d44300000008508bffffff388a3, 0x1ae3a4617c510eac63b05c06ca1493b1a22d9f300f5138f1ef3622fba094800170b5d44300000008508bfff50a42821, 0x1ae3a4617c510eac63b05c06ca1493b1a22d9f300f5138f1ef3622fba094800170b5d44300000008508b6ee76817be4, 0x1ae3a4617c510eac63b05c06ca1493b1a22d9f300f5138f1ef3622fba094800170b5d44300000008491294aa5aea661⟩,
    ⟨0xe20, 0xbb0ca2, 0x9a2b69860, 0x7f08c9a9c7e3⟩⟩
  initVec := ⟨0x80ea7c355e8e18a08c0c8be9fcd5dbf3728fa188451f70e0b959a2f8cf3986501d9ba7d8c81711a83e5cebf7e6a301, 0x1280cca38fff3fc34c6202882982aba2d8074e748ee7a73b7dc9d5e2956abcbba12e820cb839188ad01581d48cb8cb3, 0x46f985e82b873fff8e83cea2dce0b5ffb58a70c6bcb1efe4e7daf255107d96134429b6053e27658ab9d26626951510, 0x4ae71f3383b38cbb4ab8733101b8cb172691a3557a78fab45f399bf0572bc6b8b9402092ae80ded9a113da63b8e153⟩
  keyInjection := [⟨0x155b0defe00c50e08e6535a54e8bb2390d1e4cd2a7750744a1d3f84c6bdad7dba5a8a534aa29658e73b3803f2fa52b6, 0x1a78bb2f442c01c1b16bd0e93fbbb457806d63c690693602bf47599d1feec3c5d9b4990cc4e3fea0781c6242fd1b1e1, 0x6ed7b3096596f52895a08318a9a54524766c06158c86c63d65a869b9f49602549bf44726077aa50a847b68465bfc78, 0x10f3b3ff9ae347f667d3b4782b95c11eb7317cdd2af5f42a0b42c7a4a59e877be45b75fe88202403f9b3be152b06ad5⟩,
    ⟨0x766d6e8572c35bdd62c395b88835dbf73b9aacb57319cd54dc797f3a889d0b7ba4ff09db0e9858fe976f89deab48a7, 0x8d7c96daa0ff77733498cccff55ad0ca7734ebe323a4bbfd874e28fccf0b77f459d4d1b2443cf5ccf884f4382fc728, 0xaf09f75ad9674e8ab709f740f09c1275f79723c1a0ae601ca4836f092f9026a636d8067a88dfe2b51f8de93984433f, 0xa8e915a5e1158207080330a481d076b10f4efc06d69ce0911ad4c976c6d648dc0b295e21021d89d39c7ca7f0cf70ba⟩,
    ⟨0x1a9841e1a24bf355b6509d7baf244054f5260f09ebee739230fe9d7be02ec8ce4ad34a7678ea22e8aed9e8a249d94a9, 0x175fd49a0527f803cc03a2e60b7e7f1b27e3d44ab95d447ed34fd1fb598939e609a936493d0af4d1815edbc01772891, 0x7c9fd5eea5ba3743a867d3ca23b6bb537c2a539e8bc3f2f72d802a01cf5212fc34655ec9d886f8b8a3c6bc5fca9eaf, 0xbed8f86576f97b907c26eb273fdd89c2d414b9dc880cf29f6b3e7046322e4f211e2e2ed155f0967d065eb481393e06⟩,
    ⟨0x1f5cb40e2d85b0d9920fba96b52e774dd5c81addbefc32012b19cf16a23248abed48004712594b530db5e8e6d01e19, 0x15a0cb9e5c1d5cae92deade04de3004935d8803e2516e60f532590b539b114c94cc9b4b2bc7ed1dc8ac49170a4586c0, 0x1302e4f8fb670996041c52d4a8ae462233a4c8cadc56837edbb96950ee58e6c982356a40d0565bb52b63fb6706bc252, 0x66ade7b1487c6f193b28f2ab938288a9bea72d2f1c062dde9ecbde23f4e3807cc6b8085d040ca4661c55e3c5a9ec81⟩,
    ⟨0x71057cd5a503a0b09abc78bed360556c5c0acb4054233000fd4537dcfea462db1f726c0cb7b2cf1a1180859d511e0d, 0x241c1ac32d2ff09ad8de9088ad9dc8f4b66d371e217a3e0aaf85ac1e92a32884ff04cc8f9bcfca2969cf6caf2b1f72, 0x38c10cc0e0154c4eed9dc1bc661d418d9daa168ea2c0a53f2659931826f319c54bc05d7ca8480c1a0c2801a2e7880d, 0x37095d93e008b578bff6d0cdaca4da15af9584a2a66aa8482473e56f596fe66aed94fe0b9025194c3dbe57662fcedc⟩,
    ⟨0xb8aa02f7bf16f51a5af61733b40f28811e8179e4023a66977f5f663c7cb00b83005b21e6c205539d5a0778e0c32e8b, 0xbbcd2d64e3491646fcfd399328dc8735e98d2144e40e8f80e64440f6269fd4d5670529f37049c243bd2bb79aca3bf0, 0x7b6d932c2c4704749f3c46615e260d3a10361d103e9453ba133fa354cc392b079a5c9dac49ae50a39881a65c05702d, 0x148d4baee2292b97b8fb07129e82c789d7ccb59f89d0d02f4b585aae6ef5d07d4668570bbd58aaae6e7accab4db90af⟩,
    ⟨0x95158293688cf8708873dd86ae5a84e5bc594768b57753315a1a978b06ec2d8b51985f9aec9c7ecefc9f8756625181, 0xa30f3ed9fd0664fae393f8c36b59800d957d9501cbead7237f7056d66e32f221edb7b4c2ce2167c7213b45ab3c8c40, 0xc3aeae7365c3769dd1eddeb62cbb695d87c2a292adb7fbe69485cf9319c99960f5b1e73e820d3e816d0fac115b5a3, 0x74a62c3617c7102181469ba887f6eeb32696ad6ebf0b06f000ddfaa3527f5fe8d2b7cea422c29695a9fcf71a6362e8⟩,
    ⟨0x8183a77f235e3990279e928fd573a3c11bd4d8ff173965bb91b42c88be30d04d9e365c0bd59ecfbd6970088ffb7345, 0x134e4cbd3a1183278f082af0c6e8481af98b2c9e254f46d9536c20f5ece55895b7019cf848c6b0718cce50c2c63e844, 0xbe2127470b2c6f3e0bc06431e1e00d4caa357809fc6632ac67050251275edd1a5c5295f3ba794bb1f28416d0a47dfc, 0xc8414067c4c63dc412ea5ff7447725df7d722b5567bbffe817235a628139c44115311c0500816c0be140c01b283f71⟩,
    ⟨0x8a39a3efd6b1f75ec79fbb911f43bddacaea4af5324b2126e21192b1e95edca157ade39d6dfef94ec6c0a2aa6c329b, 0x197b7a00b161b23a3ca946dee5be3205ab431231a95fd2a8766685533e5c56cc18086df9331ae885828794e42b17684, 0x176dd581a687d2327eaba638bb9c4c4b39de14ed2940884e8cafd9ac11cffa11a4dcbc5ec51371b857a14b3432fe2d2, 0x2cbde6e2729f7f63baf972f2cc663843b3acc9ecefdb5a3fea8ff863aed9f450cfbe97bcef325d4bdb8ecae0193b8b⟩,
    ⟨0x586a1a72886f1a6a400290fd2c5a5e2bcbb7a06b0f0547a3f20ab5a9782d8cb1e021e44b86757dbf4cd962d2b3d4bd, 0xc7957414af8fe420843135e2919df6688e5ea2ef10a6e731ba3578d0743d571980095085cba68c67348939edeac816, 0x1a798fa56197ddb60cb8abf5c44ac7f2bba04c858b2be4f963fb17886cc73dfdeaa3796dda56188b6fee14994255a4c, 0xc28f2ec5a69a68969a98e369942d8b59c25b72243b96374be361fff8e399737d7ab72e62fbe77cc8b824a596cfd326⟩,
    ⟨0xc47c8ea4cae5b877a00259b56c5ec1a32f1b9a5f5ef403e4f8b3cec52fc1b01763da7f2dfb70a0558259e176d1dcf2, 0x19f3ae9c00d0c5bfda75678836f1fe62b6b2a37f0ac1381d3693dfcb2899be46701a3569ee8e6bbe1419e345a899dd7, 0x3a1aaf3ff65970d1a172c39857de668b94c5d59ed29d7aaeb951d4935426de9e703a47cce98a25893f6cb0ad54746b, 0x85b46727668bdd79b4923519d1f952d4a79194e44773ebcf6c48ed10e614e46139b85c1ac8ebac38cd3c51f15263c1⟩,
    ⟨0xc362bfc7a7e31b4d51f13f979ddeeb85668b987175cbfd508ca28e1830000a1241afecf6651648e3005cd151b7573a, 0xbcd712b2ff8ce0ba2fa650ad9eed9466578c60aa6f6d69fb14a79884d1addfbd583e22ae2867fa550deb158a373cd3, 0xe66da22639dd52e4d5bdc43f241b2ad984263e29afea52c69fd4e74fbf86858587c50f9c783b400d286ab5dcccbff5, 0x189a24204c5e0cc4ef11b92aed8b0af971b1ed8186cb158ba20214e9d9f7d41e9eb76b6bd9d8363e704defb6a10d79b⟩,
    ⟨0x70134745751347008d8efa5c8105a7a7900dcd91d019911abed1a621b34cf5918e718353fa2aad02fcb281efe764b2, 0x192b54f82f5ddaece8a99ef36f3c0d35d36ce7f0dca5127666682800b94b24cb3409e97a07123fca993cc3502889bc0, 0x1a7300da4972f1d2913e2c136e24c175c14ace4f46a799f8970d77d08d5ae091376c629e3b5059b3e40a15bce70accd, 0x11172f0e6fbd340d9257507e9d90a94a6a14d6e9b5dc65a7c997702a8b51e5a148fa96b9d56e74ef3f80edb2711dfa⟩,
    ⟨0x653fff2bcff4157168cc23f73dd1c2c254c49d8ce01ea6dad299d4ae0a6368042996d1e75de5584f77cca4832163b6, 0x536f585c229b10b1f5fb421f428a79d74a79b31316d373914ba68032e76c1316bc8869237a9a20c1c5752191d8424f, 0x93b072ba7b1d99dd48d0e621336a6bc6994618f0908273d98ee9efab1fcb5f9783e424a403f9e7e52e1dc50c0ec969, 0x17a1cc09eb00d4259065ca72c6a1e84199f620ab34446f084fa9a8dda9db3ce1bd22faa95dfbd6f1d63dc5ffd640b4a⟩,
    ⟨0x158a55d933ac5075113079f1bcb55427339e8fd1382bc62f2175fef575dadeaf7161b37c2d195a2af0abdaad8ba2272, 0xc59c758e93069f510e12a932fe48189e998ac3f2a906eebe4480ca60ff85fa4349f61181e2ea3632187c642059bea6, 0x19d3e7b99e1977be698824cac3ace4c35832964250b45d2116e0dab8b78e721522f75fa42d5e42d851a770c5049525b, 0x114780105f3b3a7559841e65839ee4ade9934537b02eeb5c43099e3fa57fd99d815c7b6cdfd9e74f7b2c96eeb9bc76f⟩,
    ⟨0x1608d88ed43ec345a894fd5dd21e9d2bcf6843a1ab33be28cc720848f7798c66d72c24c9bf1bb1080093d1e832cb275, 0x75bfb78db21e0f02d6bd2578ce87eda0b1987a66f511c0e7d8c6029a1043d342f22e5bb5edd7014a2fe82bce313e0c, 0xd4d9a993b22525bba8c8ee8594a97097473396fc6ebf4b5237b621fab5269ccb73b2c3c3b04430b276a0b759ef874a, 0x18ca96bb467b38d7bb264af1fa318c40e4eeea0a2eab47d9aa1c19f8297fc854549d29498fd925180d4beac26cfb0bc⟩,
    ⟨0xf277d8cededfbdc4b5944bfdd324c80f261585811bddbe47ba3f88a4e20c8c0d3f6834609e7854aaf2555e662a0ece, 0x10986157c21a9bcd6fbbfeef285083ee77f83e9d5d3916332b1bea76b9f8968acd3b54d74239992a2999f73ae6e6fd7, 0x1a623df3a7e88c3da4fb909a01ee6d6368a6e1699b8ca63c6f982c67d2e2f87ae9771cd02deadb7e178ac7e94fdc923, 0x17e6dcee65d5ad29f1bb0f6071306b872ada68fde7558297e80eeaf3d4d413a83981adbebeb34c7029f3de5370be0bc⟩,
    ⟨0x1619c4dfc9bd4d7def399ccb623dd5b6be934f7655dd8c30018cd5426a76e6885ff4d870ece66d4ec8df5b455f77a22, 0x1460ae2cab3a5f8a1143e79b57924bc7efc9ce8aa5fa3ae533e7514874620889686785cf53cfb97f1286ac332ecfb8d, 0x11c3b7effcdd6beaecf417f812ab6097814a0a42a161e00b971b8b00fb42c1e6e25de11ce907a407070ba729d277553, 0xb0eae71a96770f5f9c43d01f28c74f6ddeeb53038ca065e97cea6f999852facc314cc27cd076510277a27b29cf936⟩,
    ⟨0x484e87be0b149ecfcc0df07a27042e039dcc516ef02ebc04778407119281f1b9be404cbe30a50155de75ca90fcb85, 0xebdbbd4f311210e2c54192eaea1c848ae8c3547b0bdbfd22398ddf51bb88dc90acdede79d47147c75467fd1c15b12, 0xa7e3db574e48c55c50855dc27dede95681610f07cf91b4db263b714c8c7e8c886dbc3077b208d5c018e287cd44263b, 0x6a81e3c67bb67293bbe7cd496c4c0e406426b2f2a8f1afdf7660202c3a482846c5e83fd59006cba0cf32791e169e55⟩,
    ⟨0x1815131c56056bde886678f9d6345c71e01e872e96eea842132dfe673192d1884516a72e7f85db495444d2d4f54fff1, 0x13a736fb670a61b372ce20db1c9e383744e3071ddaae4f7a3a67960848f1ec38d1e32e2670b5a611429a5cb389e8703, 0x1951159745164eb7e953a2c748797c1c5286e64e7d02b9736c2340d0d36c8268160e812e9f4be3ed8bd1aad590bd175, 0x15497ddec63d0a63ac733df61288170a15e8efabd1d687343805c6386552c608baba12760170cd87ddd7fd3b4c01638⟩,
    ⟨0xaff6dee9bce735a93325542348e244ec3956b6c32bbb169db28a1ef3ca9cda40b8d092c971a56af6168389e65f316, 0x1be881757c47badca214f21994fbb85ab6bdcdd28b5e067b93e09338e9fad80d3dffe0070d3b9aa71d895fe425d879, 0x168a911301e889a9ccf188d5a0a918ba5962d4489d1ce5e07624c34fce979638900478ee9006b2202e8e51f39301d91, 0x6d182e274c7f4d29497c41a53ea7e4cdf62c49f90bff30a17af2897aaab7528a253ff81c0f315ff6aa021176da298e⟩,
    ⟨0xbc70ad6c51aa9bb3136c8280a1dcda965463d0f1f69f7e3cbbe707c08b3c7b9c4e195c47768586309b71b5be61fa2, 0x7515a2c9b75f06b82a7300fac3909e87fa16f8e904eff43dd3695756b68447e9100b8e314cb5cce001c3d252e925af, 0x59707f106131028ed96186e435dd2416c6baa05741a095354eeb75780867ebfe583a846a9f87a4b001d785e42e58aa, 0x4bf4f930034a75022bb2f6dca9a3dcd80e0371e4174ed5520c647aef27213da8957644c3e9eb003d961486ae989102⟩,
    ⟨0xbc7851be6b28789df71b71d2682a30ec90cd85b6353f057f882ce951afebdfb9ab3f5759ba7361c3b801b43863ee76, 0x15d0204a16902397fe2eb38d79949caee1046578939bcdd6b39d42a094db91cc41190c7ac8593772356a751cb41b17e, 0x11c833f93c9a88cdb4af8860c86324189e1cb26a7df0b0ad6614136aeb0859b1fd7b744f09c2b33bb3002178b0e037f, 0x16f794843d7586047587a7339f846ace439a9da03828090016ca10df6c751375967ddaaf0da5b71bfd0577e67d7b7c3⟩,
    ⟨0x77d15efe949b54fc80a2c8e4f178097c440432f32ecfdc07ff6d1e122abcb0eec1c8e3e3211ef11756dcc6228482e3, 0x14e26fabb68420b5f65fbcbb886ad2248b920465722566cc96215b1d25ed15a8e3f97d559673ce39d865b9289c657bc, 0xdd376fe8885edc2b78c9e938a8064bd182f55247eadf416f763c1ecb032180f1a9b4f5aa1890a0ea9cd9e565a5c053, 0xa0dd9dc0bf2716907ca754177f8551587eb6c7a2ea74a46f192f8de8a3efb7fd2e5f401df27e7c0419a41d8fef7a29⟩]
  permRoundKeys := [⟨0x80ea7c355e8e18a08c0c8be9fcd5dbf3728fa188451f70e0b959a2f8cf3986501d9ba7d8c81711a83e5cebf7e6a301, 0x1280cca38fff3fc34c6202882982aba2d8074e748ee7a73b7dc9d5e2956abcbba12e820cb839188ad01581d48cb8cb3, 0x46f985e82b873fff8e83cea2dce0b5ffb58a70c6bcb1efe4e7daf255107d96134429b6053e27658ab9d26626951510, 0x4ae71f3383b38cbb4ab8733101b8cb172691a3557a78fab45f399bf0572bc6b8b9402092ae80ded9a113da63b8e153⟩,
    ⟨0x15642ef632393d774c64dbf5f2c176fe104245020e781b143eca3d24863737c650cb247abd6bdc9b0ac491b9c202c77, 0x18bec37689ae2e38906ccf24b298748e245b1520a3ef6c331ba88562ec6efe7636b70412896ca77e1288b7bae76bf14, 0x15200aa480cbe0871f7ad38d5b4e23e7a971a2d4b53d763d0d8ae791bb28c32d502ee2a23a5f4a11cff2afd74d5bab7, 0xf10852ab7cee002118f797c1ad946d15525ed65c9b9a29dd799c0d556c2494b24f7283797c9ea93e21902fd7a11448⟩,
    ⟨0x1a994d9a20497bc33d367960f18f7a2a361ffcb42a382ffa90f8c9592d7733eacbec7a45bde9550e65084eac4391178, 0x5271f90d165382b7204ca5c8c143a6f0454059d5be4a9a9239facff6b7fd6a2f11f1b3647fb628b4b3dc721d6995c7, 0x1a898d61abb7f777bdc4c80f8e24f767e5c2a52a2e1ef67098a19a82002b7fd6b03c3a12329d6a8ecb5588cbfb65ba5, 0x1352994dbec33719d2dc7170fa1d9c7199960825e6106fe67dc24ce45ecfcdf67f4b91ddaa1f7d4b8bf846dd550fdfc⟩,
    ⟨0x10052774fbee0009bedc61b1adefa5c5082feceac3e1a08541766d790ba504d3eac761960844c255246da347834788e, 0x178f157ce75b6c67fddb6773406e7f05803cd69321eff77990a2046b27575a36707589bd04a4af59483f1c40a034fc1, 0x4d956fefa4b197b3eaac3107ba1e3fc6df205f79f2e0ef3e7a10a1803584751040e1575b277e1da8079538e13dede8, 0x569569ff83c7871384cb663dfd3c60253e71e3055c876847c050eb56317c894abcd70051a1ecba108c6b6186b73cf⟩,
    ⟨0x17a6924b81c114ad58bd6b1596f7ea583257f24c88b4287f6aab5eb395e703e2ffd16536814fc0dffa43ed6e1041225, 0x151ca73c0c2b183331e6d531f42ec9e3a7d35ed8e1d4f89a47c7e4797efb9dfa7c57deccb52d48643948f830fe2e96d, 0x512368e63c0d9ae55b2d36c5e9f78cbe310d70b533bc446f603c1923da1425c859859652910b2d918c123e5edbc69e, 0x23978f14890726b17ede30b71c9344ca442b53578e3e319009ca96cb1908cc68803642843fbedfa6ded97d8810205e⟩,
    ⟨0x6fcfaa2484f8c997d1c540f5d7fdb54281fef03a3aa8cfa83d73123fd6666caf584b118aec2a2d2fa534756eabe145, 0x8e745eaecb5aceaa6804f05a943894eff31b127a742048079383096b8ba53a1efc7874de663b975f37fdee18491bd1, 0xf4ef976809dba12ac486608151b69667bb267e9c433ee2b88fc4b484c2da1a2a7fdf61526bb3a59c7065d393e4d350, 0x9822da2f30ff21d39fb052914320f07fcf76d08d9fbbac055cbed167fa563e90deffd04be873b9783ad83463765348⟩,
    ⟨0xab49e44adec5fd8b706de2a27e38307d4fbadbf75b8d872531b3fa4cfe7a93d95ac1094929beafddbd417c0ea02a1c, 0x1274814311cbea505e2ea4432d8a60d0cbada1125476bcfdd9c7784cce7258089a1bd050c9c845b216fca8cfe26610c, 0xe16d3d37daec911c869b6cce937be5a14d61055033d3892bcd5ab2950e2ac86e42a903871d85c68cdd2bd60a7b8a26, 0x53b1788ba03f90278f77e0d5ec4bf2025106cfff05aa81fddb2eaea8dfb1f7315dc6b5035f347cec1f215746d7472a⟩,
    ⟨0x1a16050f00c1df461f3a6809aab68fdc9662e1c83753cc9db7f75e608d49ad96e947925a88d6501e2e0b43af96baef6, 0x19e536d01742116626816a64e405fae1643d4c46f015d58c6363dfce0689a634763a5b41827fd1cb0f81e834d345bc6, 0x13570c4c75d2955822cbf087ef37147c182427d2095f42a7cc0c1f6a43ee2f3c2bc3e293230d4ca7056a6ae5ec86353, 0xddb26b71e4c9e80a32d805df4ef3d728e43db6ea1346de63b994d5747f7a091f7e6b650643446385b0a5343b94b428⟩,
    ⟨0x7a6601dec29c73bc104ebd04185b3f61269565ce450ce35566dae284da58fdec5fddc0a982c3daefb81865d5794102, 0x811c11cb02c62a311be79781ac5ab47e764074644bd9a459417fb489b92fb1fc3a794ef7396b72e156d670081bd116, 0x27d8d4f0d3897bc26ddb0d19bc94cbabd5598b96515e03b444b51c35bc8a8a4a730940bac8d88f7f63efac0919a10b, 0xf0d575b1186cd04c0b99fcb4103554c98bbe1a504f568f0ea5aec88771b2c654a57f2d99b6d579437372df09ca731b⟩,
    ⟨0x8799857bf2d07bb6b14bdd63b6ac89d4097d14344b05440032b31518c81ed6e7eaa27f3a9ad212228fb95521b52a1e, 0x3e4320eff297d347977f1b2128e192a6d1f0f31ec0411e739dee2a264ccbacb9d630a239dcf1ed6594f7682c4c9841, 0x155adce259f02c00435f4e78bc8157d3163a20f0b15c53db2d551e8e965c1fdd9a8bcea42fcb4fb23bb98e9fe6ef9cf, 0x3e434e09ac8d5847225538b64714f35ace80883b19e6ca06358c74fc6b411158fd599b7b856bb7f41facc04ae7ccde⟩,
    ⟨0x53bc2f43c4b11698bc921b572acedf10d52a697fd36c81594511e993a8accac11d0428f97c57fc170dd4cdf77b04d1, 0x86752e75cf225465ef7059b10f881ca400b48638f188b4048f8e1c53ae8e8dd2d553f9a7dad79c6095f18122fa9989, 0x16ea07c19463dd509b1954cf8461de9f8886f574af74e2ab194a040fa172f80b007e99c4523f59eeaf297532c99902a, 0x16661bedb501f58ac8e3ac0909944e813223622bc7ce2310265b121e4fed910f1bcdd30f6d6a19b8aa87f2c7bda87e1⟩,
    ⟨0x10787455fa84aa9949e748207de56feaad47b136aecef1f5a846e9c93f3538f442eaa6b085141fb6d79f591e7926b5a, 0x76853d8806f1777ed8aa946e487636c78ef5839a9f00831b90f7fea7a596687504e9d29992d45c197c4dcca76b15c3, 0x16ecf81ccd35c3f692a8ec243578575866e39ad75d1cd704113a4d81023fad9fda6559d533eaef19c7f4ba3fcc8ddc1, 0xa088fde25cee22fe6504de910988a8c5838099d5f36e4ab5f400fcd30aefe9f851198806a33b203dbfbaf25794eef9⟩,
    ⟨0xb4add574cf1a8710a51cabbfcb3be20b58d57301d4ebb52f754d776b7f603778753f740f849c388d679c7accca4cad, 0x15cffff86dd17c55d22efe4d94e9cac9e5e52a47d6bfbd29f239ce8068e6fe09789e6905e81cd793f193141cf805d26, 0x16ca1b5c3e26245e23c97d6ed42375f3a1d4be444c5cfe37b0746bf14b8fd48a25c350c738a58d1a7bf09eab0a43992, 0x160f9a3f683ea244c128e08ff14d6560a3525808ef71a33eed65c96b5f95652f559f5987a8048138c174d7f3f71bfe3⟩,
    ⟨0xdb6306872c5759c8eb4493b119d2c320dc6126d4e05e93b6d37ea899c9cf183583f49beb32d6ac4807ee2d104428c7, 0xfc9f5a4c5f6de2e285418abdb0b325b36f8c51b7409938a714e6c41d9d9a562f8ed014d50f056a06b7af8c0b4b4861, 0x27bd52731a6c60580d682bb14772f352e895fce041cb973d628446ccc531da4cb9be5542a744d5d8d72a14f2fd1850, 0x19891d16d258c628694c0f4da25eaa8ec2e3605bc7b590def120e992fb9020a67a9847dd5d53a6bd90aaeca2d8221c6⟩,
    ⟨0xeb8ce7a1eaab8986b232b14eab3b015fa2a8fa4a0c1197dd9f31f27a3876497268bd85d59a1d3b78a9bfb90ebeef03, 0xae59f742a340720e5b7f27f2390f3a07b6c3b4034900638bbbfbbfdced5df8862272b256a3ffaba08ff72b9cd7d9dc, 0xbf1ed608937707f12490d11b97d25c163a826540b2ce8c68c5c5ffa6c2765aafab98ddad9ad9ee12412cd060aae44, 0x9520b99f3028d17d5f3ad12b738ab1209525901fb465ad2e8c7c31aa65be056072686a7d1cea190d9d6b716fbcb3ee⟩,
    ⟨0xe7bca436e387091736b75d0916bd69942c9206c3160f0ecf43578e006191a1c09e21c6b0860362a533861f7388e1a8, 0x1199ed1baa24ed4aa5ef47fc95047f38cfa903aaf445b2dbfdf9732cf5434daa02889c4038bcea84b3829247fc4db54, 0x2c9f89f850e83be5b0d1c829205c23c22bd4d1b35af829bd85ae546df2870c1f4be1ae161f6ef9e95ef1ef881c95d, 0x8415a0b922f13fc54f2cf78765646f158fefca771d38f226d8ba051100d18873de4d74492ef22a8f50e51ccb76b742⟩,
    ⟨0x1ab0ea92922bd2ff0106e715bdee4bdc3b9f99102b5a80d7e3a3619ef28fafe3ce6c57ec46cf0c949b766aee4a3b94, 0x19d546103718308375695c6c1dc2ed16b847693950d0f5d8543d45645e31a301e07e9d713e270e4e3cb515cfca26a07, 0x14ee93268c0cc6c9ec8780bced2c34786c3195bde71646be2da12a79672b006a71c9b797af9d9ed5d14d1ca8bdf74d4, 0x18c703005b340df9f2c5395b98e2c15b776d1677029d512e7477898bf71cbe738bbcdb262ba22ea1ffbfc333284bcc5⟩,
    ⟨0x17081ea2fe252b88f18b5d6903653540e21d026f36f8a253c4e937402e5d6e240e2862c1baed97823d41f3d4021cd18, 0x1ac516ff495b21662549444b98239ba5b1b9bfd566110fd2119487581181da12f9c52be62220ac18996fd6720906e03, 0x8a188264f19ae83f4a4942abaee52ff180d95ca55c3448a27847a777f5026715f58a66546db8c5d360c14eb2754c86, 0x4b656326a6fe401fb87254b231ed4a7ab0aa0a64c4915e3e6e92e913545e651a1fd030135d08cdaf15ab29aa9259f1⟩,
    ⟨0xf6edf59d46880203e4c70c1f26d0a19170620f3b17368556854297688152bd42a98f46b310d7b502da5627a2341459, 0x121e09822c2c61eab9c5667b63c5c6662f534f3108b2c02bd1d4939db74f77cb1dc86fedf455b3fb34c642a750ee2e6, 0x2b7f8bf88cd8b0a563c41cd28e6269dfaecca9d2d6d0afed6fff358287bfa7cd5d9175cb7b542957a2a8db3dabadcf, 0x183639428c6bbca51e4a36d43981ebfe4bade175c9675c3cdcae0684881443fa6a10d351c21896454299d1320d54abf⟩,
    ⟨0xd5102abfb8a21ff87410151052b1e30d4bb1a392f51c69234e343fb6a68583b8fe3979446fce06fb4a78a1d6338352, 0x824f492d2a4947cd062e712acc342794959f9a13628e3a70d1c3291b09eb67e1b7f644bf416570e25270a7802471e4, 0x8c0c386564d842b6c82b1665eaf5969663e74ffe4104bd7e5ddb58a8bef4a8e0679909d37bbed4b65727f585299b8f, 0x1211578852d74215fa61730a2690841acb6ff046899ce7f6d991c410a4c344cca8810f2b14d361f2dd8652a28a08db⟩,
    ⟨0x15a215cf9b9889344bedf9409d6d571b50c97e5cb0502d375dbb19380f8ba4214329a77fe949fe26498be33737f5f7a, 0x95e3fa763b43bade76c824bc2a69ec363b31f696e123bf6c98c77c0d3f3d5bb57143d22bfdf159b2880f6c4e5d6885, 0xa6784acdbb2e4ae70c08f723b3e83dcb07f3767b9dac610efa84caac94002b26135b73c4df5dc52543d776140b765e, 0x1a8280101cf0d87c9946da9262b7120d55b54bcace54a80ccae053285d7be3d3278b59eb8768bb9d536eab9b2fc6ed⟩,
    ⟨0x51a0114f359994e895ec9607843c54351b0ab2206d82c3f56abc207d3f8e277e5dbdafe668ca995ceb2d10c823f583, 0x680f0f9b14f3d5a5cac66664301e1623b144c93e03fcad129003b5cadf6b3eeb1dbb581f16beb425a314c8c64be543, 0x194c04f75b4beaea4d3e0ec396b4f97ca4a2026a09ed0ca2e2b271c3b854e050679e05669506b67690b4065c6b40d20, 0x7554d3c00ca7b5da8b8745f67ff1198bc548919cfc5658be42130bae3069d7f87b92cb1eb4f7261989fadd6840e264⟩,
    ⟨0xd1b75816502d6eebc69a62082162b4482ba6b71f3caa9df14af5f8c98b9123be5cdfe6f0f8e54ed15e36fac8a9c97f, 0x4580fbbc74ee350f14837ab6117883ff29834f1402874e483e975f12ccd5a0c8f915c44a33fe9042ab1bee0878a2ed, 0x16521295c949e25b7680b619d5203b2857b0ce2bafc88bc790f3cf3f2bbfc420001d0b1b5ade6c7b5ee879997d547c, 0x1d76492fa35562c718b6bb8ee26b9f9b05aee135b09b2b8f8cf76299c684d7a3b21a36001b682eb59c726d7b4fc5bb⟩,
    ⟨0x10bc3a8e29dc3db4243627578bf94b3a157bac155862f683514eeeb11c426bfab79c975ae3a389edd07b911c21b4e48, 0xd0d361069b3ab625c1764571b25e36ddf629afa765ecc0f9dd845b5ba53ae45a10399adaad076ccc65b27b72e172db, 0x1162a4b9c9ed82dc75509f9c9dd5e2db8edec817e680f127e0049d615840fb077ddb5d839f38bf2f551a6e45beedb18, 0xb90fc671cbc724864d8e5b15236053d6caeb4ef3980e1fc8998e4f10a8cd81537b47e119db32655bccdff07921c8bb⟩,
    ⟨0x47697ddced8d5c47e178210060d8720017bd12cc8910b8655278ac2b56bf848aa2050f3bd416dd2b6612d8481c90dc, 0x260fa4e24babe311c453f0b223ca33e0475838bbb3ad91b21ad540df52a3bf84380d3b1e7c839974c0795576c4e55e, 0x6a346b6f13dfc22781c4c56a26adaab11325d9c33cdb1a3098833f22992b9aa135fb57a96d3c8ef498184293031bf7, 0x5a6754711d2a8fc7eaecc83194f53b888aa92715cebbbf6cf07e27b8409f18603b9db6e883f2e9d07e3fd7acddf429⟩]

/-- the place holders `rescue_constants/bls12_381_base.rs:14-29` and `bw6_761_base.rs`: all
constants are zero -/
def placeholder : Consts where
  A := 5
  aInv := [0, 0, 0, 0, 0, 0]
  mds := ⟨⟨0, 0, 0, 0⟩, ⟨0, 0, 0, 0⟩, ⟨0, 0, 0, 0⟩, ⟨0, 0, 0, 0⟩⟩
  initVec := ⟨0, 0, 0, 0⟩
  keyInjection := List.replicate 24 ⟨0, 0, 0, 0⟩
  permRoundKeys := List.replicate 25 ⟨0, 0, 0, 0⟩

end Verif.Rescue
