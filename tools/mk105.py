import json
r={"mods":["Verif.NN.ConvInt","Verif.NN.PropsConvInt"],"props":[["C105","Convolution and pooling layers in 32-bit int arithmetic",
"The sizes and offsets of convolution and pooling layers are computed in 32-bit signed int. When every product of sizes the layer uses fits in int, construction, forwardprop, backprop (of a convolution with stride 1 and an odd window padded to keep the size) and pooling give exactly the results of unbounded integers; when one does not fit, the constructor or the pass that computes it has undefined behaviour. A layer that the constructor accepts can be run: false, a 30000 x 30000 image with 3 filters is accepted, and every forward pass overflows.",
"all image sizes, channels, filters, strides, paddings and windows as C ints, all inputs and weights",
"overflow needs images of two thousand million entries, which no test allocates; the claim ranges over all sizes.",
["src/layer/conv2dlayer.cpp: Conv2DLayer, forwardprop, backprop, toimage, convolve","src/layer/maxpoollayer.cpp: MaxPoolLayer, forwardprop","src/layer/meanpoollayer.cpp: MeanPoolLayer, forwardprop","src/layer/layer.cpp: Layer"]]],
"notes":{"C105":["partial","C105_constructor, C105_forward, C105_maxpool, C105_meanpool, C105_backward, C105_overflow. 'A layer that the constructor accepts can be run' is false: C105_accepted_refuted. C105_backward is for stride 1 and window 2*padding+1."]},
"design":"(C105) every int operation of the layers is a checked operation; loops with checked bodies equal the idealised loops when the largest offset fits (monotonicity of the products); otherwise the first product that does not fit is found by evaluation."}
json.dump(r,open('/tmp/gen/r105.json','w'))
