import Verif.Proofs.ParserGrammar
/-!
# Items of the states of the parser

This file is made by tools/parser_gen.py from src/compiler/asn_compiler.yacc and src/compiler/autogen_copy/asn_compiler.hpp.

For every state the rules of `productions` the parser may be in the middle of, each with the position reached and the terminals that may follow it.
An item is 24 bits: the rule plus 1 (10 bits), the position (4), the index of the mask of terminals (10).
-/
namespace FastBer.Parser

def laMasks : List (List Nat) := [
   [0x0, 0x1, 0x8000000000000, 0x100000000000000, 0x400000000000000, 0x8000000000000000000000, 0x2000000000000000000000000000000,
    0x2000000000000002000000000000000, 0x2000000000000402800000800000000, 0x8000000000000000000000000000000,
    0x10000000000000000000000000000000, 0x10000000000000000008000000000000, 0x12000000000000000000000000000000,
    0x20000000000000000000000000000000, 0x40000000000000000000000000000000, 0x42000000000000000000000000000000,
    0x60000000000000000000000000000000, 0x80000000000000000000000000000000, 0x90000000000000000000000000000000,
    0xc0000000000000000000000000000000],
   [0x200000000000000000000000000000000, 0x20000000000000000010000000000000000, 0x20010000000000000010000000000000000,
    0x20020000000000000000000000000000000, 0x20020000000020000000000000000000000, 0x20020000000020000000004000000000000,
    0x20020000000220000000000000020000000, 0x20020020000020000000000000000000000, 0x20060000000000000000000000000000000,
    0x20060000000220000000000000020000000, 0x20060020000020000000000000000000000, 0x20080000000000000000000000000000000,
    0x40052000000000000000000000000000000, 0x40070000000000000000000000000000000, 0x400d0000000000000000000000000000000,
    0x60020000000000000000000000000000000, 0x60070000000000000000000000000000000, 0x60070020000020000000000000000000000,
    0x400000000000000000000000000000000000, 0x420000000000000000000000000000000000],
   [0x420000000000000000010000000000000000, 0x420010000000000000000000000000000000, 0x420010000000000000010000000000000000,
    0x2000000010000000000000000000000000000, 0x2000080010000000000000000000000000000, 0x2020080010000000000000000000000000000,
    0x4000000000000000020000000000000000000, 0x6000080010000000020000000000000000000, 0x6000080010000000020000400000000000000,
    0x6000088010000000020000400000000000000, 0x6020080010000000020000000000000000000, 0x6020080010000000020000400000000000000,
    0x6020080010000008020000400000000000000, 0x6020088010000000020000000000000000000, 0x6020088010000000020000400000000000000,
    0x60202a8010000000020000400000000000000, 0x20000000000000000000000000000000000001, 0x20000001000000000000200000010003000000,
    0x20000021000000000000200000010000000000, 0x20000100f83a1f4078501e423306e500000000],
   [0x20000100f83a1f4078505e4a3306e500000000, 0x264203a0f93a1f4078701f463306e500000000, 0x40000000000000000000000000000000000010,
    0x40000000040000800000000000000200000010, 0x40000020000000000000000000000000000010, 0x40000020000000000000000000000000000030,
    0x40000041004040000100018000000000000af0, 0x40000060000000000000000000000000000010, 0x400000a0000000000000000000000000000010,
    0x60000000000000000000000000000000000000, 0x60000000000000000000000100000000000000, 0x60000000000000000001000000000000000000,
    0x60000020000000000000000100000000000030, 0x60000040000000000000000100000000000000, 0x600200a2020000020000000104000000000000,
    0x600200e2020000020000000104000000000000, 0x600200e3020000020000200104010000000000, 0x60040050000000000000000100000000000000,
    0x60060070000000000000000100000000000000, 0x600600f2020000020000000104000000000000],
   [0x60060160f83a1f6278501e423306e520000010, 0x60400000000000000000000000000000000000, 0x60400010000000000000000000000000000000,
    0x60400010000000000000000008000000000000, 0x604200f2020000020000010104000000000000, 0x660200a8010000000020000500000000000000,
    0x660200a8010000000020000500000000000030, 0x660200e2030000228020000504000020000000]]

def laMask (k : Nat) : Nat := (laMasks.getD (k / 20) []).getD (k % 20) 0

def states0 : List Nat := [
   0x1f000b01400201003800c001008001004000, 0x1f0453, 0x4400, 0x1f000b01400201003800c00100800100c401008401, 0x10438,
   0x2000201c002018002014402, 0x4800, 0xc801, 0x44008010838, 0x1e804304004003c04003804003404003004002c04002800d02400d020402, 0x14802,
   0x1c402, 0, 0, 0x5800705400705000704c007010c38, 0x38444, 0x1e8450, 0x20802,
   0x1e804304004003c04003804003404003004002c04002800d02400d02840d02440d, 0x30440, 0x34440, 0x2c440, 0x4044003c440, 0, 0, 0, 0x54407,
   0x4c407, 0x50407, 0x6000605c006011038]

def states1 : List Nat := [
   0x20c02, 0x2880d, 0x3801103c840, 0, 0, 0x54807, 0x4c807, 0x50807, 0x5c406, 0x11438, 0x3cc40, 0, 0, 0, 0, 0, 0x5c806, 0x11838, 0x3d040, 0,
   0, 0x7404707004706c047068003064003011c38, 0, 0x1ec0271e40290d80270d40270d00270cc0270c80270c402707c02607802607044706c447, 0x48003012038,
   0x84045080045064403, 0x70847, 0x1e4454, 0x1ec43d, 0x6c847]

def states2 : List Nat := [
   0xc8427078426, 0xc4428, 0xcc428, 0xd44280d0428, 0xd8428, 0x12438,
   0x1ec0151e40160d80150d40150d00150cc0150c80150c401509805109405109005108c026088026080445,
   0x1ec03b1e400c1180461040461000460fc0460f80460f40460f00460ec0460e80460e40030e0003064803, 0x70c47, 0x6cc47,
   0x1ec0281e402a0d80280d40280d00280cc0280c8828, 0xd4828, 0x12838, 0x80845,
   0x1ec0151e40160d80150d40150d00150cc0150c80150c4015098051094451088426, 0x90451, 0xc8415098451, 0xf0446, 0, 0xf4446, 0x100446, 0, 0, 0,
   0x64c03, 0x1ec03b1e400c1180461040461000460fc0460f80460f40460f00460ec0460e80460e40030e00030e44030e0403, 0xe8446, 0xec446, 0,
   0x1080061184461044460f8446]

def states3 : List Nat := [
   0x49003c48c00648800648400648000646400f46000645c0064580064540063d400f3d000f3cc00f3c800f3c400f3c000f3bc00f3b800f3b400f3b000f3ac00f3a800f3a400f3a000f39c00f39800f39400f39000f38c00f38800f38400f38000f37c00f36800f36400f36000f33c00f32800f32400f32000f31c00f31800f31400f31000f30c00f30800f30400f30000f2fc00f2ec00f2e800f2e400f2e000f2dc0062d80062d40062d000f2cc00f2c800f2c400f2c000f2bc00f2b800f2b400f2b000f2ac00f2a800f2a400f2a000f29c00f29800f29400f29000f28c00f28800f28400f28000f27c00f27800f26c00a26800f26400f26000f25c00f25800f25400625000624c00624800624400624000623c00623800623400623000f22c00e22800e22400e22000e2080062040062000061fc0061f80061f40061e40200fc446,
   0xc8c28, 0xd4c28, 0x80c45, 0x94851, 0x1f00520a005109c051098851, 0xe4803, 0, 0, 0x27844b, 0x38044b, 0x36844b36444b, 0x39444b, 0x32044b,
   0x39044b, 0x46444b, 0x2fc44b, 0x30044b, 0x30444b, 0x30844b, 0x33c44b, 0x30c44b, 0x2a444b, 0x39844b, 0x39c44b, 0x3a044b, 0,
   0x32844b32444b, 0x3a444b, 0x3a844b]

def states4 : List Nat := [
   0x38444b, 0x2b444b, 0x37c44b, 0, 0x3ac44b, 0x36044b, 0x31444b, 0x31044b, 0x5a00054b000545844a45444a3cc44b3c844b25444a25044a24444a24044a,
   0x5a00054b000546044a45c44a3d444b3d044b24c44a24844a23c44a23844a, 0x3b444b, 0x3b044b, 0x31844b, 0x31c44b, 0, 0x3b844b, 0x2e844b, 0x3bc44b,
   0x3c044b, 0x3c444b,
   0x49003c48c04648804648404648004646404946004645c0464580464540463d40493d00493cc0493c80493c40493c00493bc0493b80493b40493b00493ac0493a80493a40493a004939c04939804939404939004938c04938804938404938004937c04936804936404936004933c04932804932404932004931c04931804931404931004930c0493080493040493000492fc0492ec0492e80492e40492e00492dc0462d80462d40462d00492cc0492c80492c40492c00492bc0492b80492b40492b00492ac0492a80492a40492a004929c04929804929404929004928c04928804928404928004927c04927804926c00a26804926404926004925c04925804925404625004624c04624804624404624004623c04623804623404623004922c00e22800e22400e22000e2080462040462000461fc0461f80461f40461e404d12004611c0461188460f8846,
   0x1e401711401711001710c0170dc017108406, 0x49403f49043c, 0x1e444f, 0, 0, 0, 0, 0, 0x2b044b]

def states5 : List Nat := [
   0x104846, 0, 0, 0, 0x26844b, 0x22840e21440d20044a, 0x26044b, 0x25844b, 0, 0x22440e22040e21040d20c40d1fc44a1f844a1f444a, 0x28044b,
   0x2a844b, 0x29c44b, 0x2c044b, 0x27c44b, 0x2bc44b, 0x2ac44b, 0x2cc44b, 0x2d444a, 0x2d044b, 0x2d844a, 0x28844b, 0, 0x2dc44a, 0x48044a,
   0x49003c48c04a48804a48404a48004a46404b46004a45c04a45804a45404a3d404b3d004b3cc04b3c804b3c404b3c004b3bc04b3b804b3b404b3b004b3ac04b3a804b3a404b3a004b39c04b39804b39404b39004b38c04b38804b38404b38004b37c04b36804b36404b36004b33c04b32804b32404b32004b31c04b31804b31404b31004b30c04b30804b30404b30004b2fc04b2ec04b2e804b2e404b2e004b2dc04a2d804a2d404a2d004b2cc04b2c804b2c404b2c004b2bc04b2b804b2b404b2b004b2ac04b2a804b2a404b2a004b29c04b29804b29404b29004b28c04b28804b28404b28004b27c04b27804b26c00a26804b26404b26004b25c04b25804b25404a25004a24c04a24804a24404a24004a23c04a23804a23404a23004b22c00e22800e22400e22000e20804a20404a20004a1fc04a1f804a1f404a1e404f48c44a48844a48444a,
   0x2b844b, 0x2c844b, 0, 0x2c444b]

def states6 : List Nat := [
   0x29844b, 0x2a044b, 0x2e044b, 0x28c44b, 0x2e444b, 0x29044b, 0x29444b, 0x28444b, 0x38844b, 0x38c44b, 0x22c40e21c40d21840d20844a20444a,
   0x23444a, 0, 0, 0, 0, 0x4b000f23040f0fc846, 0x2ec44b26c40a26444b25c44b, 0, 0x98c51, 0xa40510a045109c451, 0x36884b36484b, 0x39084b,
   0x47c01747801747400d47000d46c00d46800d4500171e803b46484b, 0x30884b, 0x35801735401735001734c01734800d34400d34000d3380173340171e801c33c84b,
   0, 0x33801733401733001732c0171e800e32884b, 0x38484b, 0x37c84b]

def states7 : List Nat := [
   0x49003c48c04a48804a48404a48004a46404b46004a45c04a45804a45404a45004a3d404b3d004b3cc04b3c804b3c404b3c004b3bc04b3b804b3b404b3b004b3ac04b3a804b3a404b3a004b39c04b39804b39404b39004b38c04b38804b38404b38004b37c04b36804b36404b36004b33c04b32804b32404b32004b31c04b31804b31404b31004b30c04b30804b30404b30004b2fc04b2ec04b2e804b2e404b2e004b2dc04a2d804a2d404a2d004b2cc04b2c804b2c404b2c004b2bc04b2b804b2b404b2b004b2ac04b2a804b2a404b2a004b29c04b29804b29404b29004b28c04b28804b28404b28004b27c04b27804b26c00a26804b26404b26004b25c04b25804b25404a25004a24c04a24804a24404a24004a23c04a23804a23404a23004b22c00e22800e22400e22000e20804a20404a20004a1fc04a1f804a1f404a1e803b1e404f45884a45484a,
   0x4b00345a0434, 0x45001941001740c0174080174040174000173fc0173f800d3f400d3f000d3ec00d3e800d3e400d3e000d3dc00d3d800d1e803b3cc84b3c884b,
   0x5ac0335a80335a40335a003359400959000958400958003357c03357803357403357003356c03356803356403354c00454803254403254002e53c03253803253402b53002d52c02d52801f52401f52001151c0115180115140115100114ec0124d40114d00114c80114c40114c00114bc0114b80114b401144c03644803644403644003643c0364380364340361ec0361e00361dc0361d80361d40361d00364b0457,
   0x25084a24084a, 0x25484a24484a,
   0x49003c48c04a48804a48404a48004a46404b46004a45c04a45804a45404a45004a3d404b3d004b3cc04b3c804b3c404b3c004b3bc04b3b804b3b404b3b004b3ac04b3a804b3a404b3a004b39c04b39804b39404b39004b38c04b38804b38404b38004b37c04b36804b36404b36004b33c04b32804b32404b32004b31c04b31804b31404b31004b30c04b30804b30404b30004b2fc04b2ec04b2e804b2e404b2e004b2dc04a2d804a2d404a2d004b2cc04b2c804b2c404b2c004b2bc04b2b804b2b404b2b004b2ac04b2a804b2a404b2a004b29c04b29804b29404b29004b28c04b28804b28404b28004b27c04b27804b26c00a26804b26404b26004b25c04b25804b25404a25004a24c04a24804a24404a24004a23c04a23804a23404a23004b22c00e22800e22400e22000e20804a20404a20004a1fc04a1f804a1f404a1e803b1e404f46084a45c84a,
   0x45001941001740c0174080174040174000173fc0173f800d3f400d3f000d3ec00d3e800d3e400d3e000d3dc00d3d800d1e803b3d484b3d084b, 0x24884a23884a,
   0x24c84a23c84a, 0x120446, 0x1e444e, 0, 0, 0, 0x118c46, 0x11c446, 0x4b00492304490f8c46, 0, 0, 0x1ec4361e8443, 0, 0x110417108806, 0x10c417,
   0, 0, 0x114417, 0, 0xdc417, 0]

def states8 : List Nat := [
   0x4a403e4a003e49c03e49803e49083c, 0, 0,
   0x49003c48c04648804648404648004646404946004645c0464580464540463d40493d00493cc0493c80493c40493c00493bc0493b80493b40493b00493ac0493a80493a40493a004939c04939804939404939004938c04938804938404938004937c04936804936404936004933c04932804932404932004931c04931804931404931004930c0493080493040493000492fc0492ec0492e80492e40492e00492dc0462d80462d40462d00492cc0492c80492c40492c00492bc0492b80492b40492b00492ac0492a80492a40492a004929c04929804929404929004928c04928804928404928004927c04927804926c00a26804926404926004925c04925804925404625004624c04624804624404624004623c04623804623404623004922c00e22800e22400e22000e2080462040462000461fc0461f80461f40461e404d104c46,
   0, 0,
   0x49003c48c00d48800d48400d48000d46401046000d45c00d45800d45400d3d40103d00103cc0103c80103c40103c00103bc0103b80103b40103b00103ac0103a80103a40103a001039c01039801039401039001038c01038801038401038000e37c01036801036401036001033c01032801032401032001031c01031801031401031001030c0103080103040103000102fc0102ec0102e80102e40102e00102dc00d2d800d2d400d2d00102cc0102c80102c40102c00102bc0102b80102b40102b00102ac00e2a80102a40102a001029c01029801029401029001028c01028801028401028001027c01027801027400d27000d26c00a26801026401026001025c01025801025400d25000d24c00d24800d24400d24000d23c00d23800d23400d23001022c00e22800e22400e22000e21c00d21800d21400d21000d20c00d1e402126884b,
   0, 0x23084b,
   0x49003c48c04a48804a48404a48004a46404b46004a45c04a45804a45404a3d404b3d004b3cc04b3c804b3c404b3c004b3bc04b3b804b3b404b3b004b3ac04b3a804b3a404b3a004b39c04b39804b39404b39004b38c04b38804b38404b38004b37c04b36804b36404b36004b33c04b32804b32404b32004b31c04b31804b31404b31004b30c04b30804b30404b30004b2fc04b2ec04b2e804b2e404b2e004b2dc04a2d804a2d404a2d004b2cc04b2c804b2c404b2c004b2bc04b2b804b2b404b2b004b2ac04b2a804b2a404b2a004b29c04b29804b29404b29004b28c04b28804b28404b28004b27c04b27804b26c00a26804b26404b26004b25c04b25804b25404a25004a24c04a24804a24404a24004a23c04a23804a23404a23004b22c00e22800e22400e22000e20804a20404a20004a1fc04a1f804a1f404a1e404f48c84a,
   0x49003c48c04a48804a48404a48004a46404b46004a45c04a45804a45404a3d404b3d004b3cc04b3c804b3c404b3c004b3bc04b3b804b3b404b3b004b3ac04b3a804b3a404b3a004b39c04b39804b39404b39004b38c04b38804b38404b38004b37c04b36804b36404b36004b33c04b32804b32404b32004b31c04b31804b31404b31004b30c04b30804b30404b30004b2fc04b2ec04b2e804b2e404b2e004b2dc04a2d804a2d404a2d004b2cc04b2c804b2c404b2c004b2bc04b2b804b2b404b2b004b2ac04b2a804b2a404b2a004b29c04b29804b29404b29004b28c04b28804b28404b28004b27c04b27804b26c00a26804b26404b26004b25c04b25804b25404a25004a24c04a24804a24404a24004a23c04a23804a23404a23004b22c00e22800e22400e22000e20804a20404a20004a1fc04a1f804a1f404a1e404f48884a,
   0x4b004b48484a23044b, 0x2f804b2f404b2f004b1e404b2ec84b26484b, 0, 0, 0,
   0x1ec0461e00461dc0461d80461d40461d00461b40461b00461ac0461a80461a40461a004619c0461980461940461900460fcc46, 0,
   0x1e80430c00400bc0400b80400b40400b00400ac00d0a800d0400400a4451, 0xa0851, 0x37801737401737001736c0171e800e368c4b, 0x478417, 0x464c4b,
   0x46840d, 0x47c41747440d47040d46c40d,
   0x49003c48c01748801748401748001746401c46001745c0174580174540173d401c3d001c3cc01c3c801c3c401c3c001c3bc01c3b801c3b401c3b001c3ac01c3a801c3a401c3a001c39c01c39801c39401c39001c38c01c38801c38401c38001c37c01c36801c36401c36001c33c01c32801c32401c32001c31c01c31801c31401c31001c30c01c30801c30401c30001c2fc01c2ec01c2e801c2e401c2e001c2dc0172d80172d40172d001c2cc01c2c801c2c401c2c001c2bc01c2b801c2b401c2b001c2ac01c2a801c2a401c2a001c29c01c29801c29401c29001c28c01c28801c28401c28001c27c01c27801c26c00a26801c26401c26001c25c01c25801c25401725001724c01724801724401724001723c01723801723401723001c22c00e22800e22400e22000e2080172040172000171fc0171f80171f40171e4024450417,
   0, 0x358417, 0x33cc4b, 0x35041734840d34440d34040d]

def states9 : List Nat := [
   0x34c417, 0x354417338417334417, 0, 0, 0, 0, 0x330417328c4b, 0x32c417, 0x338417334417, 0x4b004b454c4a23044b, 0x458c4a,
   0x49003c48c04a48804a48404a48004a46404b46004a45c04a45804a45404a3d404b3d004b3cc04b3c804b3c404b3c004b3bc04b3b804b3b404b3b004b3ac04b3a804b3a404b3a004b39c04b39804b39404b39004b38c04b38804b38404b38004b37c04b36804b36404b36004b33c04b32804b32404b32004b31c04b31804b31404b31004b30c04b30804b30404b30004b2fc04b2ec04b2e804b2e404b2e004b2dc04a2d804a2d404a2d004b2cc04b2c804b2c404b2c004b2bc04b2b804b2b404b2b004b2ac04b2a804b2a404b2a004b29c04b29804b29404b29004b28c04b28804b28404b28004b27c04b27804b26c00a26804b26404b26004b25c04b25804b25404a25004a24c04a24804a24404a24004a23c04a23804a23404a23004b22c00e22800e22400e22000e20804a20404a20004a1fc04a1f804a1f404a1e404f45044a,
   0x5a0834, 0x410417, 0x35c0173f840d3f440d3f040d3ec40d, 0x3c8c4b, 0, 0x40c417408417404417, 0x3ccc4b,
   0x4004173e840d3e440d3e040d3dc40d3d840d, 0x3fc417, 0x1d8456, 0x1dc456, 0x44c436430417, 0x43843641c417, 0x43c436420417, 0x440436424417, 0,
   0x55001f52841f, 0]

def states10 : List Nat := [
   0x4c8411,
   0x49003c48c01148801148401148001146401346001145c0114580114540113d40133d00133cc0133c80133c40133c00133bc0133b80133b40133b00133ac0133a80133a40133a001339c01339801339401339001338c01338801338401338001337c01336801336401336001333c01332801332401332001331c01331801331401331001330c0133080133040133000132fc0132ec0132e80132e40132e00132dc0112d80112d40112d00132cc0132c80132c40132c00132bc0132b80132b40132b00132ac0132a80132a40132a001329c01329801329401329001328c01328801328401328001327c01327801326c00a26801326401326001325c01325801325401125001124c01124801124401124001123c01123801123401123001322c00e22800e22400e22000e2080112040112000111fc0111f80111f40111e4022510411,
   0, 0x1d4455, 0x4b00335a4433, 0, 0x594409, 0, 0, 0x1d0455, 0x5ac4335a8433, 0x50c00d50800d50400d50000d4fc00d4f800d4f400d4f000d4ec412,
   0x5ac0335a80335a40335a003359400959000958400958003357c03357803357403357003356c03356803356403354c00454803254403254002e53c03253803253402b53002d52c02d52801f52401f52001151c01151801144c03644803644403644003643c0364380364340361ec0361e00361dc0361d80361d40361d0036568433,
   0x50c40d, 0x4d44114d0411, 0, 0x4b8411, 0x4c0411, 0x4c4411, 0x4bc411, 0x444436428417, 0, 0, 0, 0x434436414417, 0x44843642c417, 0,
   0x35c0114b0857, 0x4b4411, 0x514411]

def states11 : List Nat := [
   0x52041151c411518411, 0x53442b52441f4f440d, 0x55804255404253042d, 0x54042e52c42d4f840d, 0x56004255c04253c432, 0x5384324fc40d,
   0x550032548432, 0x54c40454443250040d, 0x56443350440d, 0x59040956c43350840d, 0, 0, 0x570433, 0x580433, 0x584409, 0x578433, 0, 0x574433,
   0x57c433, 0, 0, 0x1e0437, 0,
   0x49003c48c04a48804a48404a48004a46404b46004a45c04a45804a45404a45004a3d404b3d004b3cc04b3c804b3c404b3c004b3bc04b3b804b3b404b3b004b3ac04b3a804b3a404b3a004b39c04b39804b39404b39004b38c04b38804b38404b38004b37c04b36804b36404b36004b33c04b32804b32404b32004b31c04b31804b31404b31004b30c04b30804b30404b30004b2fc04b2ec04b2e804b2e404b2e004b2dc04a2d804a2d404a2d004b2cc04b2c804b2c404b2c004b2bc04b2b804b2b404b2b004b2ac04b2a804b2a404b2a004b29c04b29804b29404b29004b28c04b28804b28404b28004b27c04b27804b26c00a26804b26404b26004b25c04b25804b25404a25004a24c04a24804a24404a24004a23c04a23804a23404a23004b22c00e22800e22400e22000e20804a20404a20004a1fc04a1f804a1f404a1e803b1e404f250c4a240c4a,
   0x49003c48c04a48804a48404a48004a46404b46004a45c04a45804a45404a45004a3d404b3d004b3cc04b3c804b3c404b3c004b3bc04b3b804b3b404b3b004b3ac04b3a804b3a404b3a004b39c04b39804b39404b39004b38c04b38804b38404b38004b37c04b36804b36404b36004b33c04b32804b32404b32004b31c04b31804b31404b31004b30c04b30804b30404b30004b2fc04b2ec04b2e804b2e404b2e004b2dc04a2d804a2d404a2d004b2cc04b2c804b2c404b2c004b2bc04b2b804b2b404b2b004b2ac04b2a804b2a404b2a004b29c04b29804b29404b29004b28c04b28804b28404b28004b27c04b27804b26c00a26804b26404b26004b25c04b25804b25404a25004a24c04a24804a24404a24004a23c04a23804a23404a23004b22c00e22800e22400e22000e20804a20404a20004a1fc04a1f804a1f404a1e803b1e404f254c4a244c4a,
   0x4b004b45cc4a23044b, 0x460c4a, 0x3d0c4b, 0x3d4c4b,
   0x49003c48c04a48804a48404a48004a46404b46004a45c04a45804a45404a45004a3d404b3d004b3cc04b3c804b3c404b3c004b3bc04b3b804b3b404b3b004b3ac04b3a804b3a404b3a004b39c04b39804b39404b39004b38c04b38804b38404b38004b37c04b36804b36404b36004b33c04b32804b32404b32004b31c04b31804b31404b31004b30c04b30804b30404b30004b2fc04b2ec04b2e804b2e404b2e004b2dc04a2d804a2d404a2d004b2cc04b2c804b2c404b2c004b2bc04b2b804b2b404b2b004b2ac04b2a804b2a404b2a004b29c04b29804b29404b29004b28c04b28804b28404b28004b27c04b27804b26c00a26804b26404b26004b25c04b25804b25404a25004a24c04a24804a24404a24004a23c04a23804a23404a23004b22c00e22800e22400e22000e20804a20404a20004a1fc04a1f804a1f404a1e803b1e404f248c4a238c4a]

def states12 : List Nat := [
   0x49003c48c04a48804a48404a48004a46404b46004a45c04a45804a45404a45004a3d404b3d004b3cc04b3c804b3c404b3c004b3bc04b3b804b3b404b3b004b3ac04b3a804b3a404b3a004b39c04b39804b39404b39004b38c04b38804b38404b38004b37c04b36804b36404b36004b33c04b32804b32404b32004b31c04b31804b31404b31004b30c04b30804b30404b30004b2fc04b2ec04b2e804b2e404b2e004b2dc04a2d804a2d404a2d004b2cc04b2c804b2c404b2c004b2bc04b2b804b2b404b2b004b2ac04b2a804b2a404b2a004b29c04b29804b29404b29004b28c04b28804b28404b28004b27c04b27804b26c00a26804b26404b26004b25c04b25804b25404a25004a24c04a24804a24404a24004a23c04a23804a23404a23004b22c00e22800e22400e22000e20804a20404a20004a1fc04a1f804a1f404a1e803b1e404f24cc4a23cc4a,
   0x14401713801813401713001712c017128017124017120846, 0, 0x108c06, 0x1e40171140170dc017110817, 0, 0, 0x49c43e, 0x4a043e, 0x49843e,
   0x4ac0144a80141ec0141e0014490c3c, 0x2f444c, 0x2f844c, 0x2f044b, 0, 0, 0, 0x4b0049230449105046, 0, 0, 0x1b0446, 0x19c446, 0x1a0446,
   0x1a4446, 0, 0, 0x38040e, 0, 0, 0x328410324410]

def states13 : List Nat := [
   0, 0, 0x1ec0411e00411dc0411d80411cc0411c80411c40411c00411bc0411b80411b4446, 0, 0x1e4421, 0, 0, 0x2b0410, 0x1c84411a8446, 0x268c4b,
   0x27040d, 0x4b001027440d230410, 0, 0, 0, 0, 0x194446, 0x1c44411ac446, 0, 0, 0x1e0448, 0, 0, 0, 0x4b004b48cc4a23044b,
   0x4b004b488c4a23044b, 0x2ecc4b, 0x264c4b, 0, 0]

def states14 : List Nat := [
   0, 0, 0x198446, 0, 0, 0x1ec4481cc441, 0, 0x1c0441190446, 0xfd046, 0, 0, 0xbc444, 0, 0xa4851,
   0x1e80430c00400bc0400b80400b40400b00400ac00d0a800d0400400ac40d0a840d, 0xb0440, 0xb4440, 0xb8440, 0xc0440040440, 0x37041736904b, 0x36c417,
   0x378417374417, 0x46504b, 0x4500171e803b47c81747480d47080d, 0x4b004b45084a23044b, 0, 0, 0x33d04b,
   0x3580173540173380173340171e801c35081734880d34480d, 0x1ec0111e00111dc0111d8011338817334817]

def states15 : List Nat := [
   0, 0x32904b, 0x3380173340171e800e330817,
   0x49003c48c01748801748401748001746401c46001745c0174580174540173d401c3d001c3cc01c3c801c3c401c3c001c3bc01c3b801c3b401c3b001c3ac01c3a801c3a401c3a001c39c01c39801c39401c39001c38c01c38801c38401c38001c37c01c36801c36401c36001c33c01c32801c32401c32001c31c01c31801c31401c31001c30c01c30801c30401c30001c2fc01c2ec01c2e801c2e401c2e001c2dc0172d80172d40172d001c2cc01c2c801c2c401c2c001c2bc01c2b801c2b401c2b001c2ac01c2a801c2a401c2a001c29c01c29801c29401c29001c28c01c28801c28401c28001c27c01c27801c26c00a26801c26401c26001c25c01c25801c25401725001724c01724801724401724001723c01723801723401723001c22c00e22800e22400e22000e2080172040172000171fc0171f80171f40171e4024410817,
   0x3f880d3f480d3f080d3ec80d, 0, 0, 0x43001742c01742801742401742001741c0174180174140171ec0171e00171dc0171d80171d40171d001740c817, 0x408817,
   0x3cd04b, 0x45001941001740c0174080174040171e803b4008173e880d3e480d3e080d3dc80d,
   0x5ac0325a80325a40325a003259400959000958400958003257c03257803257403257003256c03256803256403244c03544803544403544003543c0354380354340351ec0351e00351dc0351d80351d40351d0035550432,
   0x52881f, 0x4c8811, 0x4b0013510811230413, 0, 0x5a4833, 0, 0, 0x5b00334b00335a8833, 0x5bc0335b80335b40335ac833, 0, 0x4ec812, 0x4f040d,
   0x568833, 0x4e00174dc0174d80174d4811, 0, 0x4b0c57, 0x52081151c811, 0x558442]

def states16 : List Nat := [
   0x554442,
   0x5ac0335a80335a40335a003359400959000958400958003357c03357803357403357003356c03356803356403354c00454803254403254002e53c03253803244c03644803644403644003643c0364380364340361ec0361e00361dc0361d80361d40361d003653082d,
   0x560442, 0x55c442,
   0x5ac0335a80335a40335a003359400959000958400958003357c03357803357403357003356c03356803356403354c00454803254403244c03644803644403644003643c0364380364340361ec0361e00361dc0361d80361d40361d003653c832,
   0x548832, 0, 0x59c03359803358c03358803344c03344803344403344003343c0334380334340331ec0331e00331dc0331d80331d40331d0033580833, 0, 0,
   0x4b004b24104a23044b, 0x25104a, 0x4b004b24504a23044b, 0x25504a, 0x3d504b, 0x4b004b23904a23044b, 0x24904a, 0x4b004b23d04a23044b, 0x24d04a,
   0x138418,
   0x49003c48c01b48801b48401b48001b46401e46001b45c01b45801b45401b3d401e3d001e3cc01e3c801e3c401e3c001e3bc01e3b801e3b401e3b001e3ac01e3a801e3a401e3a001e39c01e39801e39401e39001e38c01e38801e38401e38001e37c01e36801e36401e36001e33c01e32801e32401e32001e31c01e31801e31401e31001e30c01e30801e30401e30001e2fc01e2ec01e2e801e2e401e2e001e2dc01b2d801b2d401b2d001e2cc01e2c801e2c401e2c001e2bc01e2b801e2b401e2b001e2ac01e2a801e2a401e2a001e29c01e29801e29401e29001e28c01e28801e28401e28001e27c01e27801e26c00a26801e26401e26001e25c01e25801e25401b25001b24c01b24801b24401b24001b23c01b23801b23401b23001e22c00e22800e22400e22000e20801b20401b20001b1fc01b1f801b1f401b1e4025144417,
   0, 0x128417120c46, 0x124417, 0x12c417, 0x14001713c017134417, 0x130417, 0, 0, 0]

def states17 : List Nat := [
   0, 0, 0, 0x110c17, 0, 0x4a8414, 0x4ac414, 0x49103c, 0, 0, 0, 0x1b8441, 0x1ec0411e00411dc0411d80411cc0411c80411c40411c00411bc4411b4846,
   0x1cc841, 0x26904b, 0, 0, 0, 0, 0, 0, 0, 0, 0, 0, 0, 0, 0, 0, 0xa4c51]

def states18 : List Nat := [
   0xac80d, 0xbc0110c0840, 0x36944b, 0x3780173740171e800e370817, 0x1ec0111e0011378817374817, 0x474c0d470c0d, 0x47cc17, 0, 0, 0, 0,
   0x35c017348c0d344c0d, 0x350c17, 0x338c17, 0x334c17, 0x330c17, 0x4b001c410c1723041c,
   0x45001941001740c0174080174040174000173fc0171e803b3f8c0d3f0c0d3ecc0d, 0x418417, 0, 0, 0x40cc17, 0x35c0173e8c0d3e4c0d3e0c0d3dcc0d,
   0x400c17, 0x550832, 0x4cc00d4c8c11, 0, 0, 0x5b0433, 0x5a8c33]

def states19 : List Nat := [
   0x5c80175c400d5c000d1e801d5bc4335b84335b4433, 0x5acc33, 0, 0x4ecc12, 0, 0x568c33, 0x4e80234e40231e80234e0417, 0x4dc4174d4c11, 0x4d8417,
   0, 0x4b1057, 0x520c1151cc11, 0x54042e530c2d, 0x53cc32, 0x59c433,
   0x59c03359803344c03344803344403344003343c0334380334340331ec0331e00331dc0331d80331d40331d003358c433, 0x598433, 0x580c33, 0x588433, 0, 0,
   0, 0, 0x4b001e15001714c01714801723041e144817, 0, 0x15c046158046121046, 0x14401713801813401713001712c017128817, 0, 0, 0x13c417]

def states20 : List Nat := [
   0x134817, 0x49143c, 0, 0x1b4c46, 0x1bc841, 0x1ccc41, 0, 0, 0, 0, 0, 0, 0, 0, 0, 0, 0xc0c40, 0x370c17, 0x374c17, 0x378c17,
   0x47c0174780174500171e803b47500d, 0, 0x34900d34500d, 0x339017, 0x335017, 0x3f900d, 0x4004173f100d3ed00d, 0x3e900d3e500d3e100d3dd00d, 0, 0]

def states21 : List Nat := [
   0, 0, 0x4c9011, 0, 0, 0, 0x5b88335b4833, 0x5bc833, 0x5c440d5c040d, 0x5d401a5d001a5cc0174b001a5c8417, 0, 0, 0, 0x4e84234e0817, 0x4e4423,
   0x4d5011, 0x4e00174dc817, 0,
   0x5ac0305a80305a40305a003059400959000958400958003057c03057803057403057003056c03056803056403054c00454802f54402f54002e53c02f53802f53402b53002c52c02c52801152401144c03144803144403144003143c0314380314340311ec0311e00311dc0311d80311d40311d0031521011,
   0x58c833, 0, 0, 0, 0x14c417, 0x148417, 0, 0, 0x154017144c17, 0, 0]

def states22 : List Nat := [
   0, 0x15c446, 0x121446, 0x128c17, 0, 0x1cd041, 0xc1040, 0x375017, 0x379017, 0x47c41747540d, 0,
   0x35801735401735001734c0173380173340171e801c34940d, 0x45001941001740c0174080174040171e803b4008173f140d,
   0x45001941001740c0174080174040174000173fc0171e803b3e940d3e540d3e140d, 0, 0x4c9411, 0, 0, 0x5b4c33, 0x5c80175c400d5c000d1e801d5b8c33,
   0x5bcc33, 0x5c80175c400d5c000d1e801d5c480d, 0x5d041a, 0x5c8817, 0x5e40175e00175dc0175d80175cc417, 0, 0, 0, 0x1e80234e8823, 0x4dcc17]

def states23 : List Nat := [
   0x521411, 0, 0, 0, 0, 0, 0, 0, 0, 0, 0, 0, 0, 0x145017, 0x16004615c846, 0x4500171e803b47c817, 0x35041734980d, 0x3f180d,
   0x4004173e980d3e580d3e180d, 0, 0, 0, 0, 0x5b9033, 0x5c4c0d, 0x5dc417, 0x5e0417, 0x5d8417, 0x5cc817, 0]

def states24 : List Nat := [
   0, 0, 0x4e8c23, 0, 0, 0, 0, 0, 0, 0, 0, 0, 0, 0, 0, 0, 0, 0, 0, 0, 0, 0, 0, 0, 0, 0, 0, 0, 0, 0]

def states25 : List Nat := [
   0, 0, 0, 0, 0, 0, 0, 0, 0, 0, 0x184439, 0, 0, 0, 0, 0, 0, 0, 0, 0, 0, 0, 0, 0, 0, 0, 0, 0, 0, 0]

def states26 : List Nat := [
   0, 0, 0, 0, 0, 0, 0, 0, 0, 0, 0, 0, 0, 0, 0, 0, 0, 0, 0, 0, 0, 0, 0, 0, 0, 0, 0, 0, 0, 0]

def states27 : List Nat := [
   0, 0x17c439, 0, 0, 0x18c03918803918403918003917c03917803917403917003a16c03a16803a16403a160446, 0x15cc46,
   0x3580173540173380173340171e801c350817, 0x45001941001740c0174080174040171e803b4008173e9c0d3e5c0d, 0, 0x5b9433, 0, 0, 0, 0, 0, 0, 0, 0, 0,
   0x188439, 0, 0, 0, 0, 0, 0, 0, 0, 0, 0]

def states28 : List Nat := [
   0, 0, 0, 0, 0, 0, 0, 0, 0, 0, 0, 0, 0, 0, 0, 0x18c439, 0, 0x180439, 0x18c03918803918403918003917c03917803917403917003a16c03a16843a160846,
   0x16443a, 0, 0x16c43a, 0x2f803a2f403a18c03918803918403918003917c03917843917043a, 0x174439, 0x3ea00d3e600d, 0, 0, 0x160c46, 0x16883a,
   0x17083a]

def states29 : List Nat := [
   0x178839, 0x45001941001740c0174080174040174000173fc0171e803b3ea40d, 0, 0, 0x4004173ea80d, 0x45001941001740c0174080174040171e803b400817]

def states : List (List Nat) := [states0, states1, states2, states3, states4, states5, states6, states7, states8, states9, states10, states11, states12, states13,
   states14, states15, states16, states17, states18, states19, states20, states21, states22, states23, states24, states25, states26,
   states27, states28, states29]

/-- The items of a number. -/
def decodeItems : Nat → Nat → List (Nat × Nat × Nat)
  | 0, _ => []
  | fuel + 1, n =>
    if n = 0 then [] else ((n >>> 14) % 1024 - 1, (n >>> 10) % 16, n % 1024) :: decodeItems fuel (n >>> 24)

/-- The items of state `s`: rule, position, mask. -/
def itemsOf (s : Nat) : List (Nat × Nat × Nat) :=
  if s < 900 then decodeItems 111 ((states.getD (s / 30) []).getD (s % 30) 0) else []

end FastBer.Parser
